import Verif.Lemmas.Client5Alias
import Verif.Props.C76

/-!
C79: topic aliases of the MQTT 5 client are used as its options say.

`granted a` is the number of aliases the server of the last connection of a history `a` allows, `published a` are the
topics the user published to on it. A PUBLISH begun after `a` has the bytes `w`, in which the server reads `q`.
-/
namespace Mqtt.Props

open Mqtt.Spec Mqtt.Spec5 Mqtt.V5 Mqtt.Client5 Mqtt.Options5

/-- The number of `enum aws_mqtt5_client_outbound_topic_alias_behavior_type` in the options: 0 and 3 disable outbound
aliases, 1 leaves them to the user, 2 is a least-recently-used cache. -/
def outboundOption (o : Options) : Nat := (o.aliasing.getD {}).outbound

theorem sent_resolved {cfg : Config} {c : Client} (hr : Client5.Reachable cfg c) {a b : List Effect} {u : Nat}
    {v : PublishView} {w : Bytes} (hlog : c.ops.log = a ++ .started u (.publish v) w :: b)
    (hrep : AllRep (a ++ [.started u (.publish v) w])) :
    AliasSent cfg.outboundAliases (resolving cfg.outboundAliases a) (hearing a) v w ∧
      ∃ s' p, serve (hearing a) w = some (s', p) := by
  have h := (reachable_stream hr).each a (.started u (.publish v) w) b hlog
  refine ⟨h.2.2.2.2 u v w rfl hrep.left (hrep u _ w (by simp)), ?_⟩
  obtain ⟨s', h1⟩ := h.2.1 u _ w rfl hrep.left (hrep u _ w (by simp))
  exact ⟨s', _, h1⟩

theorem outbound_of {portOk : Nat → Nat → Bool} {uuid : Bytes} {o : Options} {s : Storage}
    (h : store portOk uuid o = some s) : s.client.outboundAliases = outboundBehavior (outboundOption o) := by
  obtain ⟨_, _, _, hc⟩ := store_eq h
  rw [hc]
  rfl

/-- A client that does not use outbound aliases sends none, one that leaves them to the user sends the user's, and no alias
is 0 or more than the server allows. -/
theorem C79_sent {portOk : Nat → Nat → Bool} {uuid : Bytes} {o : Options} {s : Storage}
    (h : store portOk uuid o = some s) {c : Client} (hr : Client5.Reachable s.client c) {a b : List Effect} {u : Nat}
    {v : PublishView} {w : Bytes} (hlog : c.ops.log = a ++ .started u (.publish v) w :: b)
    (hrep : AllRep (a ++ [.started u (.publish v) w])) :
    ∃ q, packet w = some (.publish q) ∧
      (outboundOption o = 0 ∨ outboundOption o = 3 → topicAliasOf q = none) ∧
      (outboundOption o = 1 → topicAliasOf q = v.topicAlias) ∧
      ∀ n, topicAliasOf q = some n → 0 < n ∧ n ≤ granted a := by
  obtain ⟨⟨_, q, r', hq, hob, _⟩, s', p, hs⟩ := sent_resolved hr hlog hrep
  rw [outbound_of h] at hob
  refine ⟨q, hq, ?_, ?_, ?_⟩
  · intro ho
    rcases ho with ho | ho <;> rw [ho] at hob <;> exact hob
  · intro ho
    rw [ho] at hob
    exact hob
  · intro n hn
    unfold serve at hs
    rw [hq] at hs
    simp only [hn, Option.map_eq_some_iff] at hs
    obtain ⟨⟨s1, t⟩, h1, _⟩ := hs
    simp only [AliasServer.receive, hearing_max] at h1
    split at h1
    · cases h1
    · omega

/-- A client with a least-recently-used cache sends an alias with every PUBLISH if the server allows any; it leaves out the
topic exactly when that is among the topics used last, as many as the server allows. What the user put as alias is
ignored. -/
theorem C79_lru {portOk : Nat → Nat → Bool} {uuid : Bytes} {o : Options} {s : Storage}
    (h : store portOk uuid o = some s) (ho : outboundOption o = 2) {c : Client} (hr : Client5.Reachable s.client c)
    {a b : List Effect} {u : Nat} {v : PublishView} {w : Bytes} (hlog : c.ops.log = a ++ .started u (.publish v) w :: b)
    (hrep : AllRep (a ++ [.started u (.publish v) w])) :
    ∃ q, packet w = some (.publish q) ∧ ((topicAliasOf q).isSome = true ↔ 0 < granted a) ∧
      q.topic = if v.topic ∈ (byUse (published a)).take (granted a) then [] else v.topic := by
  obtain ⟨⟨hi, q, r', hq, _, hb⟩, _⟩ := sent_resolved hr hlog hrep
  have hcfg : s.client.outboundAliases = .lru := by rw [outbound_of h, ho]; rfl
  rw [hcfg] at hi hb
  have he : Each (Streams .lru) a := fun x y z hx => by
    have := (reachable_stream hr).each x y (z ++ .started u (.publish v) w :: b) (by rw [hlog, hx]; simp)
    rwa [hcfg] at this
  refine ⟨q, hq, ?_⟩
  rcases lru_cache he hrep.left with ⟨h0, h1⟩ | ⟨h0, d, h1, h2⟩
  · rw [h1] at hb
    simp only [TopicAlias.beginPublish, TopicAlias.Outbound.resolve, ne_eq, not_true_eq_false, if_false] at hb
    rw [h0]
    split at hb
    · injection hb with _ h3 h4
      rw [← h3, ← h4]
      simp
    · cases hb
  · rw [h1] at hb hi
    simp only [TopicAlias.beginPublish, TopicAlias.Outbound.resolve, if_neg (Nat.ne_of_gt h0)] at hb
    cases hx : TopicAlias.resolveLru d (granted a) v.topic with
    | none => rw [hx] at hb; cases hb
    | some y =>
      obtain ⟨r1, n, t'⟩ := y
      rw [hx] at hb
      obtain ⟨_, _, _, g3⟩ := TopicAlias.lru_keys h0 (byUse_nodup _) h2 hx
      have hn := TopicAlias.lru_positive hi hx
      simp only [if_pos hn] at hb
      injection hb with _ h3 h4
      rw [← h3, ← h4, ← g3]
      simp [h0]

/-- Two PUBLISH packets that were begun after the user had published to the same topics on the connection, to servers that
allow the same number of aliases, have the same topic and alias if the user gave them the same topic, whatever aliases
the user gave. -/
theorem C79_ignored {portOk : Nat → Nat → Bool} {uuid : Bytes} {o : Options} {s : Storage}
    (h : store portOk uuid o = some s) (ho : outboundOption o ≠ 1) {c₁ c₂ : Client}
    (hr₁ : Client5.Reachable s.client c₁) (hr₂ : Client5.Reachable s.client c₂) {a₁ a₂ b₁ b₂ : List Effect} {u₁ u₂ : Nat}
    {v₁ v₂ : PublishView} {w₁ w₂ : Bytes} (hlog₁ : c₁.ops.log = a₁ ++ .started u₁ (.publish v₁) w₁ :: b₁)
    (hlog₂ : c₂.ops.log = a₂ ++ .started u₂ (.publish v₂) w₂ :: b₂)
    (hrep₁ : AllRep (a₁ ++ [.started u₁ (.publish v₁) w₁])) (hrep₂ : AllRep (a₂ ++ [.started u₂ (.publish v₂) w₂]))
    (hg : granted a₁ = granted a₂) (hp : published a₁ = published a₂) (ht : v₁.topic = v₂.topic) :
    ∃ q₁ q₂, packet w₁ = some (.publish q₁) ∧ packet w₂ = some (.publish q₂) ∧ q₁.topic = q₂.topic ∧
      topicAliasOf q₁ = topicAliasOf q₂ := by
  obtain ⟨⟨_, q₁, r₁, hq₁, _, hb₁⟩, _⟩ := sent_resolved hr₁ hlog₁ hrep₁
  obtain ⟨⟨_, q₂, r₂, hq₂, _, hb₂⟩, _⟩ := sent_resolved hr₂ hlog₂ hrep₂
  have hnm : s.client.outboundAliases ≠ .manual := by
    rw [outbound_of h]
    unfold outboundBehavior
    repeat' split
    all_goals first
      | contradiction
      | simp
  refine ⟨q₁, q₂, hq₁, hq₂, ?_⟩
  have hsame : resolving s.client.outboundAliases a₁ = resolving s.client.outboundAliases a₂ := by
    rw [resolving_topics hnm, resolving_topics hnm, hg, hp]
  rw [← hsame] at hb₂
  rw [beginPublish_any hnm (resolving_kind _ _) v₁.topic v₁.topicAlias v₂.topicAlias, ht, hb₂] at hb₁
  injection hb₁ with _ h1 h2
  exact ⟨h1.symm, h2.symm⟩

/-- Inbound aliases: enabled, the client allows as many as the option says; disabled, none unless the user asked for
them in the CONNECT options. -/
theorem C79_inbound_partial {portOk : Nat → Nat → Bool} {uuid : Bytes} {o : Options} {s : Storage}
    (h : store portOk uuid o = some s) {c : Client} (hr : Client5.Reachable s.client c) {u : Nat} {v : ConnectView} {w : Bytes}
    (hs : .started u (.connect v) w ∈ c.ops.log) :
    (∀ n, inboundAliasing o = some n → v.topicAliasMaximum = some n) ∧
    (inboundAliasing o = none → o.connect.bind (·.topicAliasMaximum) = none → v.topicAliasMaximum = none) := by
  obtain ⟨asked, ha, hm⟩ := C76_connect h hr hs
  have h1 := congrArg ConnectView.topicAliasMaximum hm.same
  simp only at h1
  refine ⟨?_, ?_⟩
  · intro n hn
    rw [h1, hn]
  · intro hn hx
    rw [h1, hn]
    rw [ha] at hx
    exact hx

/-! ## Where the documentation is not met -/

/-- Options with alias options `a`, and with CONNECT options `v`. -/
def aliasOptions (a : Aliasing) (v : ConnectView := {}) : Options :=
  { hostName := [97], bootstrap := true, publishHandler := true, lifecycleHandler := true, aliasing := some a,
    connect := some v }

/-- The PUBLISH packets begun, as topic and alias. -/
def aliasesSent (log : List Effect) : List (Bytes × Option Nat) :=
  (wires log).filterMap fun w =>
    match packet w with
    | some (.publish q) => some (q.topic, topicAliasOf q)
    | _ => none

/-- What a history of a client made from options leads to. -/
def aliasRun (o : Options) (es : List Event) (t : Client → Bool) : Bool :=
  match store (fun _ _ => true) [] o with
  | none => false
  | some s => (run s.client (Client.new s.client) es).test t

theorem aliasRun_test {o : Options} {es : List Event} {t : Client → Bool} (h : aliasRun o es t = true) :
    ∃ s c, store (fun _ _ => true) [] o = some s ∧ Client5.Reachable s.client c ∧ t c = true := by
  unfold aliasRun at h
  split at h
  · cases h
  · rename_i s hs
    obtain ⟨c, h1, h2⟩ := run_test h
    exact ⟨s, c, hs, h1, h2⟩

/-- Publishing to topics, with aliases given by the user. -/
def publishAll (ts : List (Bytes × Option Nat)) : List Event :=
  ts.map (fun t => .submit (publishTo t.1 0 t.2) 0 false) ++ [.service {}]

/-- **The size of the cache is not limited by `outbound_alias_cache_max_size`.** With a maximum of 1, and a server that
allows 5, a client sends the aliases 1 and 2. -/
theorem C79_violated_size : ∃ s c, store (fun _ _ => true) [] (aliasOptions { outbound := 2, outboundMax := 1 }) = some s ∧
    Client5.Reachable s.client c ∧
    aliasesSent c.ops.log = [([97], some 1), ([98], some 2), ([], some 1), ([], some 2)] := by
  obtain ⟨s, c, h1, h2, h3⟩ := aliasRun_test (o := aliasOptions { outbound := 2, outboundMax := 1 })
    (es := connectWith { topicAliasMaximum := some 5 } ++
      publishAll [([97], none), ([98], none), ([97], none), ([98], none)])
    (t := fun c => decide (aliasesSent c.ops.log = [([97], some 1), ([98], some 2), ([], some 1), ([], some 2)]))
    (by decide +kernel)
  exact ⟨s, c, h1, h2, by simpa using h3⟩

/-- **An alias of the user is not ignored when the server allows none.** The PUBLISH is not sent, and the connection is
closed. -/
theorem C79_violated_ignored : ∃ s c, store (fun _ _ => true) [] (aliasOptions { outbound := 1 }) = some s ∧
    Client5.Reachable s.client c ∧ granted c.ops.log = 0 ∧ c.ops.nextUid > 1 ∧ aliasesSent c.ops.log = [] ∧
    c.ctl.state = .channelShutdown := by
  obtain ⟨s, c, h1, h2, h3⟩ := aliasRun_test (o := aliasOptions { outbound := 1 })
    (es := connectWith {} ++ publishAll [([97], some 1)])
    (t := fun c => decide (granted c.ops.log = 0) && decide (c.ops.nextUid > 1) && decide (aliasesSent c.ops.log = []) &&
      decide (c.ctl.state = .channelShutdown))
    (by decide +kernel)
  simp only [Bool.and_eq_true, decide_eq_true_eq] at h3
  exact ⟨s, c, h1, h2, h3.1.1.1, h3.1.1.2, h3.1.2, h3.2⟩

/-- **Disabled inbound aliases are offered to the server** if the CONNECT options say so. -/
theorem C79_violated_inbound : ∃ s c u v w,
    store (fun _ _ => true) [] (aliasOptions { inbound := 2 } { topicAliasMaximum := some 7 }) = some s ∧
    Client5.Reachable s.client c ∧ .started u (.connect v) w ∈ c.ops.log ∧ v.topicAliasMaximum = some 7 := by
  obtain ⟨s, c, h1, h2, h3⟩ := aliasRun_test (o := aliasOptions { inbound := 2 } { topicAliasMaximum := some 7 })
    (es := connectWith {})
    (t := fun c => c.ops.log.any fun
      | .started _ (.connect v) _ => v.topicAliasMaximum == some 7
      | _ => false)
    (by decide +kernel)
  simp only [List.any_eq_true] at h3
  obtain ⟨e, he, h3⟩ := h3
  split at h3
  · rename_i u v w
    exact ⟨s, c, u, v, w, h1, h2, he, by simpa using h3⟩
  · cases h3

/-! ## Examples -/

/-- Aliases of the user are ignored by a cache for two topics; the third topic takes the place of the one not used for
the longest time. -/
example : aliasRun (aliasOptions { outbound := 2 }) (connectWith { topicAliasMaximum := some 2 } ++
      publishAll [([97], some 9), ([98], none), ([97], some 2), ([99], none), ([97], none), ([98], some 1)])
    (fun c => decide (aliasesSent c.ops.log =
      [([97], some 1), ([98], some 2), ([], some 1), ([99], some 2), ([], some 1), ([98], some 2)] ∧
      granted c.ops.log = 2 ∧ published c.ops.log = [[97], [98], [97], [99], [97], [98]])) = true := by
  decide +kernel

/-- Aliases left to the user, and disabled. -/
example : aliasRun (aliasOptions { outbound := 1 }) (connectWith { topicAliasMaximum := some 2 } ++
      publishAll [([97], some 2), ([97], none), ([97], some 2)])
    (fun c => decide (aliasesSent c.ops.log = [([97], some 2), ([97], none), ([], some 2)])) = true ∧
    aliasRun (aliasOptions { outbound := 0 }) (connectWith { topicAliasMaximum := some 2 } ++
      publishAll [([97], some 2), ([97], none), ([97], some 2)])
    (fun c => decide (aliasesSent c.ops.log = [([97], none), ([97], none), ([97], none)])) = true := by
  decide +kernel

/-- Packets with small numbers are representable. -/
example : AllRep ([.submitted 1 (publishTo [97] 0 (some 9))] ++ [.started 1 (publishTo [97] 0 (some 9)) []]) := by
  intro u p w h
  simp only [List.cons_append, List.nil_append, List.mem_cons, List.not_mem_nil, or_false, reduceCtorEq, false_or,
    Effect.started.injEq] at h
  obtain ⟨_, rfl, _⟩ := h
  simp [Representable, publishTo, OptLt]

end Mqtt.Props
