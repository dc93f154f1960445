import Verif.Lemmas.Streamed5
import Verif.Lemmas.Client5Life

/-!
The bytes the MQTT 5 client writes, and what the other end reads in them.
-/
namespace Mqtt.Client5

open Mqtt.V5 Mqtt.Spec Mqtt.Spec5 Mqtt.Props

attribute [local irreducible] pingDue pingDeadline connackDeadline ackDeadline

/-! ## What the resolver has become -/

/-- The resolver of topic aliases after a history. -/
def resolvingOne (b : TopicAlias.Behavior) (r : TopicAlias.Outbound) : Effect → TopicAlias.Outbound
  | .connected st => (TopicAlias.Outbound.new b).reset st.topicAliasMaximumToServer
  | .started _ (.publish v) _ =>
    match TopicAlias.beginPublish r v.topic v.topicAlias with
    | .ok r' _ _ => r'
    | _ => r
  | _ => r

def resolving (b : TopicAlias.Behavior) (log : List Effect) : TopicAlias.Outbound :=
  log.foldl (resolvingOne b) (TopicAlias.Outbound.new b)

theorem resolving_one (b : TopicAlias.Behavior) (log : List Effect) (e : Effect) :
    resolving b (log ++ [e]) = resolvingOne b (resolving b log) e := by simp [resolving]

theorem resolving_other (b : TopicAlias.Behavior) (r : TopicAlias.Outbound) {p : Outgoing} (hp : isPublish p = false)
    {u : Nat} {w : Bytes} : resolvingOne b r (.started u p w) = r := by
  cases p <;> first
    | rfl
    | cases hp

/-- The PUBLISH `w` is what the resolver makes of `v`. -/
def AliasSent (b : TopicAlias.Behavior) (r : TopicAlias.Outbound) (s : AliasServer) (v : PublishView) (w : Bytes) : Prop :=
  TopicAlias.AliasInv b r s ∧ ∃ q r', packet w = some (.publish q) ∧ Obeys b v.topicAlias (topicAliasOf q) ∧
    TopicAlias.beginPublish r v.topic v.topicAlias = .ok r' q.topic (topicAliasOf q)

/-! ## One packet -/

/-- The packet appended to the encoder is understood, and the two ends agree on aliases afterwards. -/
theorem append_serve {b : TopicAlias.Behavior} {enc enc' : Encoder} {r : TopicAlias.Outbound} {s : AliasServer}
    {log : List Effect} {u : Nat} {p : Outgoing} {p0 : Outgoing} {n : Nat}
    (hr : enc.resolver = some r) (hi : TopicAlias.AliasInv b r s) (hm : s.max < 65536) (ho : Origin log u p)
    (hrep : Representable p) (hq : ∀ v, p = .publish v → (v.packetId ≠ 0 ↔ v.qos ≠ 0))
    (hz : encodedSize p0 = some n) (hp0 : ∃ i, p = withPacketId p0 i) (h : enc.append p = .ok enc') :
    ∃ s' r', serve s ((stepsBytes enc'.steps).drop (stepsBytes enc.steps).length) = some (s', meaning (unaliased p)) ∧
      enc'.resolver = some r' ∧ TopicAlias.AliasInv b r' s' ∧ s'.max = s.max ∧
      (∀ u w, resolvingOne b r (.started u p w) = r') ∧
      ∀ v, p = .publish v → AliasSent b r s v ((stepsBytes enc'.steps).drop (stepsBytes enc.steps).length) := by
  obtain ⟨i, hp0⟩ := hp0
  have hpush : ∀ {e₀ : Encoder} {q : Outgoing}, e₀.push (packetSteps q) = .ok enc' → e₀.steps = enc.steps →
      ∃ steps, Accepted q steps ∧ (stepsBytes enc'.steps).drop (stepsBytes enc.steps).length = stepsBytes steps ∧
        enc'.resolver = e₀.resolver := by
    intro e₀ q hx he
    obtain ⟨steps, h1, h2, h3⟩ := push_ok hx
    refine ⟨steps, ⟨h1, h2⟩, ?_, ?_⟩
    · rw [h3, he, stepsBytes_append, List.drop_left]
    · rcases push_resolver e₀ (packetSteps q) with ⟨e, g1, g2⟩ | ⟨e, g1, g2⟩
      · rw [g1] at hx; cases hx; exact g2
      · rw [g1] at hx; cases hx
  have other : isPublish p = false → enc.push (packetSteps p) = .ok enc' →
      ∃ s' r', serve s ((stepsBytes enc'.steps).drop (stepsBytes enc.steps).length) =
        some (s', meaning (unaliased p)) ∧
      enc'.resolver = some r' ∧ TopicAlias.AliasInv b r' s' ∧ s'.max = s.max ∧
      (∀ u w, resolvingOne b r (.started u p w) = r') ∧
      ∀ v, p = .publish v → AliasSent b r s v ((stepsBytes enc'.steps).drop (stepsBytes enc.steps).length) := fun hpub hx => by
    obtain ⟨steps, h1, h2, h3⟩ := hpush hx rfl
    have hfit : Mqtt.V5.Fits p := by
      cases hu : isUser p with
      | true => exact user_fits ho hu hrep hq
      | false =>
        cases p <;> first | exact hrep | cases hu
    have hsz : SizeKnown p := by
      right
      rw [hp0, encodedSize_withPacketId (by rw [hp0] at hpub; revert hpub; cases p0 <;> exact fun h => h)]
      rw [hz]; simp
    have hw := C22_meaning p hfit hsz steps h1
    rw [← h2] at hw
    exact ⟨s, r, serve_other hw hpub, h3.trans hr, hi, rfl, fun _ _ => resolving_other b r hpub,
      by rintro v rfl; cases hpub⟩
  cases p with
  | publish v =>
    clear other
    simp only [Encoder.append, hr] at h
    rcases TopicAlias.alias_step hi v.topic (topic_of_origin ho) v.topicAlias with
      ⟨_, h1, _⟩ | ⟨r', t', a', s', h1, h2, h3, h4⟩
    · rw [h1] at h; cases h
    · simp only [h1] at h
      obtain ⟨steps, g1, g2, g3⟩ := hpush (q := .publish { v with topic := t', topicAlias := a' }) h rfl
      have hfit : PublishFits v := user_fits ho rfl hrep hq
      have hfit' := resolved_fits hfit hm h2
      have hsz : SizeKnown (.publish { v with topic := t', topicAlias := a' }) := by
        right
        cases hp : p0 with
        | publish v0 =>
          rw [hp] at hz hp0
          simp only [withPacketId, Outgoing.publish.injEq] at hp0
          refine publish_known hz g1.1 g1.2 ?_ hfit'.topic
          rw [hp0]
        | _ => rw [hp] at hp0; cases hp0
      have hw := C22_meaning (.publish { v with topic := t', topicAlias := a' }) hfit' hsz steps g1
      rw [← g2] at hw
      refine ⟨s', r', serve_publish hw h2, g3, h3, h4, ?_, ?_⟩
      · intro u w
        simp only [resolvingOne, h1]
      rintro x ⟨⟩
      obtain ⟨q, k1, k2, k3⟩ := meaning_alias { v with topic := t', topicAlias := a' }
      rw [k1] at hw
      exact ⟨hi, q, r', hw, by rw [k2]; exact obeys_step hi h1, by rw [k2, k3]; exact h1⟩
  | _ => exact other rfl h

/-- A CONNECT or DISCONNECT appended to the encoder is understood. -/
theorem append_bare {enc enc' : Encoder} {p : Outgoing} (s : AliasServer) (hrep : Representable p)
    (hu : isUser p = false) (hz : SizeKnown p) (h : enc.append p = .ok enc') :
    serve s ((stepsBytes enc'.steps).drop (stepsBytes enc.steps).length) = some (s, meaning (unaliased p)) := by
  have hpub : isPublish p = false := by cases p <;> first | rfl | cases hu
  have hx : enc.push (packetSteps p) = .ok enc' := by cases p <;> first | exact h | cases hu
  have hfit : Mqtt.V5.Fits p := by cases p <;> first | exact hrep | cases hu
  obtain ⟨steps, h1, h2, h3⟩ := push_ok hx
  have hw := C22_meaning p hfit hz steps ⟨h1, h2⟩
  refine serve_other ?_ hpub
  rw [h3, stepsBytes_append, List.drop_left]
  exact hw

/-! ## Logs -/

theorem AllRep.left {a b : List Effect} (h : AllRep (a ++ b)) : AllRep a :=
  fun u p w hm => h u p w (List.mem_append_left _ hm)

/-- Effects that have nothing to do with the stream. -/
def dry : Effect → Bool
  | .started .. => false
  | .wrote _ => false
  | .connected _ => false
  | .disconnected => false
  | _ => true

theorem recent_one (log : List Effect) (e : Effect) : recent (log ++ [e]) = recentOne (recent log) e := by simp [recent]

theorem hearing_one (log : List Effect) (e : Effect) : hearing (log ++ [e]) = hear (hearing log) e := by simp [hearing]

theorem wires_append (a b : List Effect) : wires (a ++ b) = wires a ++ wires b := by simp [wires]

theorem written_append (a b : List Effect) : written (a ++ b) = written a ++ written b := by simp [written]

theorem dry_log {log new : List Effect} (h : ∀ e ∈ new, dry e = true) :
    wires (recent (log ++ new)) = wires (recent log) ∧ written (recent (log ++ new)) = written (recent log) ∧
      hearing (log ++ new) = hearing log := by
  induction new generalizing log with
  | nil => simp
  | cons e new ih =>
    have he := h e (by simp)
    obtain ⟨h1, h2, h3⟩ := ih (log := log ++ [e]) fun x hx => h x (by simp [hx])
    rw [List.append_assoc, List.singleton_append] at h1 h2 h3
    rw [h1, h2, h3, recent_one, hearing_one]
    cases e <;> first
      | cases he; done
      | exact ⟨by simp [recentOne, wires], by simp [recentOne, written], rfl⟩

theorem dry_resolving {b : TopicAlias.Behavior} {log new : List Effect} (h : ∀ e ∈ new, dry e = true) :
    resolving b (log ++ new) = resolving b log := by
  induction new generalizing log with
  | nil => simp
  | cons e new ih =>
    have he := h e (by simp)
    have h1 := ih (log := log ++ [e]) fun x hx => h x (by simp [hx])
    rw [List.append_assoc, List.singleton_append] at h1
    rw [h1, resolving_one]
    cases e <;> first
      | cases he; done
      | rfl

theorem dry_live {log new : List Effect} (h : ∀ e ∈ new, dry e = true) : live (log ++ new) = live log := by
  induction new generalizing log with
  | nil => simp
  | cons e new ih =>
    have he := h e (by simp)
    have h1 := ih (log := log ++ [e]) fun x hx => h x (by simp [hx])
    rw [List.append_assoc, List.singleton_append] at h1
    rw [h1]
    cases e <;> first
      | cases he; done
      | simp [live]

theorem dry_completions (ops : List Op) (e : Error) : ∀ x ∈ completions ops e, dry x = true := by
  intro x hx
  simp only [completions, List.mem_map] at hx
  obtain ⟨_, _, rfl⟩ := hx
  rfl

/-- What is written continues the packets begun; each packet begun is understood. -/
def Streams (b : TopicAlias.Behavior) (a : List Effect) (x : Effect) : Prop :=
  (∀ d, x = .wrote d → written (recent a) ++ d <+: (wires (recent a)).flatten) ∧
  (∀ u p w, x = .started u p w → AllRep a → Representable p →
    ∃ s', serve (hearing a) w = some (s', meaning (unaliased p))) ∧
  (∀ u p w, x = .started u p w → isPublish p = true → live a = true) ∧
  (∀ s, x = .connected s → live a = false) ∧
  (∀ u v w, x = .started u (.publish v) w → AllRep a → Representable (.publish v) →
    AliasSent b (resolving b a) (hearing a) v w)

theorem sound_dry {b : TopicAlias.Behavior} {log new : List Effect} (h : Each (Streams b) log) (hn : ∀ e ∈ new, dry e = true) : Each (Streams b) (log ++ new) :=
  h.boring (f := fun e => !dry e) (by simpa using hn) fun a x hx => by
    refine ⟨?_, ?_, ?_, ?_, ?_⟩
    · rintro d rfl; cases hx
    · rintro u p w rfl; cases hx
    · rintro u p w rfl; cases hx
    · rintro s rfl; cases hx
    · rintro u p w rfl; cases hx

theorem sound_end {b : TopicAlias.Behavior} {log : List Effect} (h : Each (Streams b) log) {x : Effect}
    (hx : x = .disconnected ∨ (∃ s, x = .connected s) ∧ live log = false) :
    Each (Streams b) (log ++ [x]) := by
  refine h.append fun a y b hab => ?_
  cases a with
  | cons z a => simp at hab
  | nil =>
    simp only [List.nil_append, List.cons.injEq] at hab
    obtain ⟨rfl, _⟩ := hab
    refine ⟨?_, ?_, ?_, ?_, ?_⟩
    · rintro d rfl; rcases hx with hx | ⟨⟨_, hx⟩, _⟩ <;> cases hx
    · rintro u p w rfl; rcases hx with hx | ⟨⟨_, hx⟩, _⟩ <;> cases hx
    · rintro u p w rfl; rcases hx with hx | ⟨⟨_, hx⟩, _⟩ <;> cases hx
    · rintro s rfl
      rcases hx with hx | ⟨_, hx⟩
      · cases hx
      · rw [List.append_nil]; exact hx
    · rintro u p w rfl; rcases hx with hx | ⟨⟨_, hx⟩, _⟩ <;> cases hx

/-! ## The encoder and the stream -/

/-- The packets begun are what has been written, what is in the message being built (`buf`) and what the encoder still has
to write; the two ends agree on aliases. -/
structure Fine (cfg : Config) (c : Client) (buf : Bytes) : Prop where
  bytes : (wires (recent c.ops.log)).flatten = written (recent c.ops.log) ++ buf ++ stepsBytes c.ops.encoder.steps
  ok : ∀ s ∈ c.ops.encoder.steps, s.Ok
  idle : c.ops.current = none → c.ops.encoder.steps = []
  alias : AllRep c.ops.log → c.ctl.state = .connected → ∃ r, c.ops.encoder.resolver = some r ∧
    TopicAlias.AliasInv cfg.outboundAliases r (hearing c.ops.log) ∧ (hearing c.ops.log).max < 65536 ∧
    r = resolving cfg.outboundAliases c.ops.log

structure StreamInv (cfg : Config) (c : Client) : Prop where
  each : Each (Streams cfg.outboundAliases) c.ops.log
  opened : c.ctl.state.open = true → Fine cfg c []
  quiet : c.ctl.state.quiet = true → wires (recent c.ops.log) = [] ∧ written (recent c.ops.log) = []

/-- The CONNECT and DISCONNECT packets of a queue. -/
def edges (q : List Op) : List Op := q.filter fun o => isConnect o.packet || isDisconnect o.packet

theorem edges_append (a b : List Op) : edges (a ++ b) = edges a ++ edges b := by simp [edges]

theorem edges_none {op : Op} (h : isConnect op.packet = false) (h' : isDisconnect op.packet = false) : edges [op] = [] := by
  simp [edges, h, h']

theorem edges_insert {op : Op} (h : isConnect op.packet = false) (h' : isDisconnect op.packet = false) (q : List Op) :
    edges (insertPuback op q) = edges q := by
  induction q with
  | nil => exact edges_none h h'
  | cons o q ih =>
    rw [insertPuback]
    split
    · simp only [edges, List.filter_cons] at ih ⊢
      rw [ih]
    · simp [edges, h, h']

/-- Nothing happens to the stream. -/
structure Still (c c' : Client) : Prop where
  log : ∃ new, c'.ops.log = c.ops.log ++ new ∧ ∀ e ∈ new, dry e = true
  encoder : c'.ops.encoder = c.ops.encoder
  current : c'.ops.current = c.ops.current
  opened : c'.ctl.state.open = true → c.ctl.state.open = true
  quiet : c'.ctl.state.quiet = true → c.ctl.state.quiet = true
  up : c'.ctl.state = .connected → c.ctl.state = .connected
  start : c'.ctl.state = .mqttConnect → c.ctl.state = .mqttConnect
  ends : (edges c'.ops.queued).Sublist (edges c.ops.queued) ∨
    (c.ctl.state = .connected ∨ c.ctl.state = .mqttConnect) ∧ c'.ctl.state ≠ .connected ∧ c'.ctl.state ≠ .mqttConnect ∧
      ∃ op : Op, isDisconnect op.packet = true ∧ (edges c'.ops.queued).Sublist (op :: edges c.ops.queued)

theorem Still.refl (c : Client) : Still c c := ⟨⟨[], by simp, by simp⟩, rfl, rfl, id, id, id, id, .inl (List.Sublist.refl _)⟩

theorem Still.trans {a b c : Client} (h : Still a b) (h' : Still b c) : Still a c := by
  obtain ⟨n, h1, h2⟩ := h.log
  obtain ⟨n', h3, h4⟩ := h'.log
  refine ⟨⟨n ++ n', by rw [h3, h1, List.append_assoc], ?_⟩, h'.encoder.trans h.encoder, h'.current.trans h.current,
    fun x => h.opened (h'.opened x), fun x => h.quiet (h'.quiet x), fun x => h.up (h'.up x),
    fun x => h.start (h'.start x), ?_⟩
  · intro e he
    rcases List.mem_append.1 he with he | he
    · exact h2 e he
    · exact h4 e he
  · rcases h.ends with g1 | ⟨g1, g2, g3, op, g4, g5⟩
    · rcases h'.ends with g1' | ⟨g1', g2', g3', op, g4', g5'⟩
      · exact .inl (g1'.trans g1)
      · exact .inr ⟨g1'.imp h.up h.start, g2', g3', op, g4', g5'.trans (g1.cons_cons op)⟩
    · rcases h'.ends with g1' | ⟨g1', _⟩
      · exact .inr ⟨g1, fun hx => g2 (h'.up hx), fun hx => g3 (h'.start hx), op, g4, g1'.trans g5⟩
      · rcases g1' with g1' | g1'
        · exact absurd g1' g2
        · exact absurd g1' g3

theorem Still.fine {cfg : Config} {c c' : Client} (h : Still c c') {buf : Bytes} (hf : Fine cfg c buf) : Fine cfg c' buf := by
  obtain ⟨n, h1, h2⟩ := h.log
  obtain ⟨d1, d2, d3⟩ := dry_log (log := c.ops.log) h2
  refine ⟨?_, ?_, ?_, ?_⟩
  · rw [h1, d1, d2, h.encoder]; exact hf.bytes
  · rw [h.encoder]; exact hf.ok
  · rw [h.encoder, h.current]; exact hf.idle
  · rw [h1, d3, h.encoder, dry_resolving h2]
    intro ha hs
    exact hf.alias ha.left (h.up hs)

theorem Still.each {b : TopicAlias.Behavior} {c c' : Client} (h : Still c c') (he : Each (Streams b) c.ops.log) : Each (Streams b) c'.ops.log := by
  obtain ⟨n, h1, h2⟩ := h.log
  rw [h1]
  exact sound_dry he h2

theorem Still.stream {cfg : Config} {c c' : Client} (h : Still c c') (hi : StreamInv cfg c) : StreamInv cfg c' := by
  refine ⟨h.each hi.each, fun ho => h.fine (hi.opened (h.opened ho)), fun hq => ?_⟩
  obtain ⟨n, h1, h2⟩ := h.log
  obtain ⟨d1, d2, _⟩ := dry_log (log := c.ops.log) h2
  rw [h1, d1, d2]
  exact hi.quiet (h.quiet hq)

/-! ## Events that leave the stream alone -/

/-- Only the control part changes. -/
theorem Still.ctl {s : OpState} {k k' : Control} (h : k'.state = k.state ∨ k'.state = .channelShutdown) :
    Still ⟨s, k⟩ ⟨s, k'⟩ := by
  refine ⟨⟨[], by simp, by simp⟩, rfl, rfl, ?_, ?_, ?_, ?_, .inl (List.Sublist.refl _)⟩ <;>
    rcases h with h | h <;> simp [h, State.open, State.quiet]

theorem Still.ops {c : Client} {s : OpState} {new : List Effect} (hl : s.log = c.ops.log ++ new)
    (hn : ∀ e ∈ new, dry e = true) (he : s.encoder = c.ops.encoder) (hc : s.current = c.ops.current)
    (hq : (edges s.queued).Sublist (edges c.ops.queued) := by exact List.Sublist.refl _) :
    Still c ⟨s, c.ctl⟩ := ⟨⟨new, hl, hn⟩, he, hc, id, id, id, id, .inl hq⟩

theorem still_shutdown (c : Client) (e : Error) : Still c { c with ctl := c.ctl.shutdownChannel e } :=
  Still.ctl (shutdownChannel_cases _ _).2

theorem still_emitShutdown (c : Client) (e e' : Error) : Still c { c with ctl := (c.ctl.emitFinal e).shutdownChannel e' } := by
  have h := (shutdownChannel_cases (c.ctl.emitFinal e) e').2
  exact Still.ctl (by simpa using h)

theorem still_complete (c : Client) (op : Op) (e : Error) (a : Option Received) : Still c (c.complete op e a) :=
  (Still.ops (new := [.completed op.uid op.packet e a]) (s := c.ops.complete op e a) rfl (by simp [dry]) rfl rfl).trans
    (Still.ctl (onComplete_cases _ _ _).2)

theorem still_shutdownWith (c : Client) (e : Error) (v : DisconnectView) : Still c (c.shutdownWith e v) := by
  unfold Client.shutdownWith
  split
  · rename_i h
    refine ⟨⟨[], by simp [OpState.pushFront], by simp⟩, rfl, rfl, ?_, by simp [State.quiet], by simp, by simp,
      .inr ⟨h, by simp, by simp, c.ops.newOp (.disconnect v), rfl, List.Sublist.refl _⟩⟩
    rcases h with h | h <;> simp [h, State.open]
  · exact still_shutdown c e

theorem still_shutdownClean (c : Client) (e : Error) (r : Nat) : Still c (c.shutdownClean e r) := by
  unfold Client.shutdownClean
  split
  · exact still_shutdown c e
  · exact still_shutdownWith ..

theorem still_submit (cfg : Config) (c : Client) {p : Outgoing} (t : Nat) (x : Bool) (hu : isUser p = true) :
    Still c (c.submit cfg p t x) := by
  unfold Client.submit
  split
  · exact .ops (new := [.submitted c.ops.nextUid p, .completed c.ops.nextUid p .terminated none]) rfl
      (by simp [dry]) rfl rfl
  · split
    · exact .ops (new := [.submitted c.ops.nextUid p, .completed c.ops.nextUid p .offlinePolicy none]) rfl
        (by simp [dry]) rfl rfl
    · refine .ops (new := [.submitted c.ops.nextUid (withPacketId p 0)]) rfl (by simp [dry]) rfl rfl ?_
      simp only [OpState.accept, edges_append]
      rw [edges_none ?_ ?_, List.append_nil]
      · exact List.Sublist.refl _
      · rw [changeStats_packet]
        revert hu
        cases p <;> simp [OpState.newOp, withPacketId, isUser, isConnect]
      · rw [changeStats_packet]
        revert hu
        cases p <;> simp [OpState.newOp, withPacketId, isUser, isDisconnect]

theorem still_setDesired (c : Client) (d : Desired) (v : Option DisconnectView) : Still c (c.setDesired d v) := by
  unfold Client.setDesired
  split
  · exact .refl _
  · have h1 : Still c { c with ctl := { c.ctl with desired := d } } := Still.ctl (.inl rfl)
    simp only
    split
    · split
      · exact h1.trans (still_shutdownWith ..)
      · exact h1
    · exact h1

theorem still_writeComplete (c : Client) (e : Error) : Still c (c.writeComplete e) := by
  unfold Client.writeComplete
  simp only
  have h1 : Still c ⟨({ c.ops with pendingWrite := false, writing := [] } : OpState).completeAll c.ops.writing e, c.ctl⟩ := by
    rw [completeAll_eq]
    exact .ops rfl (dry_completions _ _) rfl rfl (List.Sublist.refl _)
  refine h1.trans ?_
  split
  · exact (Still.ctl (shutdownChannel_cases _ e).2).trans (Still.ctl (onCompleteAll_cases _ _ _).2)
  · exact Still.ctl (onCompleteAll_cases _ _ _).2

theorem still_handleAck {c c' : Client} {id : Nat} {ack : Received} (h : c.handleAck id ack = .ok c') : Still c c' := by
  unfold Client.handleAck at h
  split at h
  · cases h; exact .refl _
  · split at h
    · cases h
    · rename_i op rest _
      have h0 : Still c { c with ops := { c.ops with unacked := rest, table := c.ops.table.del id } } :=
        .ops (List.append_nil _).symm (by simp) rfl rfl
      simp only at h
      split at h
      · cases h
      · cases h; exact h0.trans (still_complete ..)
      · split at h
        · cases h
          exact (h0.trans (still_complete _ op .protocolError none)).trans (still_shutdownClean ..)
        · cases h
          exact (h0.trans (still_complete _ op .protocolError none)).trans (still_shutdown ..)

theorem still_onPublish (c : Client) (v : PublishView) (a : Bool) : Still c { c with ops := c.ops.onPublish v a } := by
  obtain ⟨s1, ctl, hs, hl, hx⟩ := onPublish_queue c.ops v a
  rcases hx with hx | hx
  · rw [hx]; exact .ops hl (by simp [dry]) hs.encoder hs.current (by rw [hs.queued]; exact List.Sublist.refl _)
  · rw [hx]
    exact .ops (new := [.delivered v ctl, .pubackQueued s1.nextUid v.packetId]) (by simp [OpState.queuePuback, hl])
      (by simp [dry]) (by simp [OpState.queuePuback, hs.encoder]) (by simp [OpState.queuePuback, hs.current])
      (by show (edges (insertPuback _ s1.queued)).Sublist _; rw [edges_insert rfl rfl, hs.queued]; exact List.Sublist.refl _)

theorem still_invoke (c : Client) (ctl : Nat) : Still c { c with ops := c.ops.invoke ctl } := by
  rcases invoke_queue c.ops ctl with ⟨id, s1, _, hs, hl, _, _, _, hx⟩ | ⟨_, hs, hl, _⟩
  · rw [hx]
    exact .ops (new := [.invoked ctl (some id), .pubackQueued s1.nextUid id]) (by simp [OpState.queuePuback, hl])
      (by simp [dry]) (by simp [OpState.queuePuback, hs.encoder]) (by simp [OpState.queuePuback, hs.current])
      (by show (edges (insertPuback _ s1.queued)).Sublist _; rw [edges_insert rfl rfl, hs.queued]; exact List.Sublist.refl _)
  · exact .ops hl (by simp [dry]) hs.encoder hs.current (by rw [hs.queued]; exact List.Sublist.refl _)

theorem still_onPacketConnected {c c' : Client} {p : Received} {a : Bool} (h : c.onPacketConnected p a = .ok c') :
    Still c c' := by
  unfold Client.onPacketConnected at h
  split at h
  · cases h; exact Still.ctl (.inl rfl)
  · split at h
    · cases h
    · rename_i k hk
      unfold Control.emitFinalDisconnect at hk
      split at hk
      · cases hk
      · cases hk; cases h; exact still_emitShutdown ..
  · exact still_handleAck h
  · exact still_handleAck h
  · cases h; exact still_onPublish ..
  · refine Still.trans ?_ (still_handleAck h)
    exact .ops rfl (by simp [dry]) rfl rfl
  · cases h; exact .refl _

theorem still_readFailed (c : Client) (e : Error) : Still c (c.readFailed e) := by
  unfold Client.readFailed
  split
  · exact still_shutdownClean ..
  · exact still_shutdown ..

theorem still_resetConnection (c : Client) : Still c c.resetConnection := by
  unfold Client.resetConnection
  split
  · exact still_shutdown ..
  · exact still_shutdown ..
  · exact Still.ctl (.inl rfl)
  · exact .refl _

theorem still_checkTimeouts {now : Nat} {c c' : Client} (h : c.checkTimeouts now = .ok c') : Still c c' := by
  have key : ∀ {fuel : Nat} {s s' : OpState}, Client5.checkTimeouts now fuel s = .ok s' →
      ∃ new, s'.log = s.log ++ new ∧ (∀ e ∈ new, dry e = true) ∧ s'.encoder = s.encoder ∧ s'.current = s.current ∧
        s'.queued = s.queued := by
    intro fuel
    induction fuel with
    | zero => intro s s' h; simp only [Client5.checkTimeouts] at h; cases h; exact ⟨[], by simp⟩
    | succ fuel ih =>
      intro s s' h
      rw [Client5.checkTimeouts] at h
      split at h
      · cases h; exact ⟨[], by simp⟩
      · split at h
        · cases h
        · split at h
          · cases h; exact ⟨[], by simp⟩
          · simp only at h
            split at h
            · cases h; exact ⟨[], by simp⟩
            · split at h
              · cases h
              · rename_i s1 hs1
                obtain ⟨n, h1, h2, h3, h4⟩ := ih h
                unfold OpState.resolve at hs1
                split at hs1
                · cases hs1
                · cases hs1
                  refine ⟨_ :: n, by rw [h1, OpState.complete, List.append_assoc]; rfl, ?_, h3, h4⟩
                  intro e he
                  rcases List.mem_cons.1 he with rfl | he
                  · rfl
                  · exact h2 e he
  unfold Client.checkTimeouts at h
  split at h
  · cases h
  · rename_i s hs
    cases h
    obtain ⟨n, h1, h2, h3, h4, h5⟩ := key hs
    exact .ops h1 h2 h3 h4 (by rw [h5]; exact List.Sublist.refl _)

theorem still_queuePing (c : Client) (now : Nat) : Still c (c.queuePing now) := by
  unfold Client.queuePing
  have h := resetPing_state c.ctl now
  generalize c.ctl.resetPing now = k at *
  have h1 : Still c ⟨{ c.ops.pushFront .pingreq with
      log := (c.ops.pushFront .pingreq).log ++ [.pingQueued c.ops.nextUid] }, c.ctl⟩ :=
    Still.ops (new := [.pingQueued c.ops.nextUid]) rfl (by simp [dry]) rfl rfl
  exact h1.trans (Still.ctl (.inl h))

theorem still_toStopped {c : Client} (hq : c.ctl.state.quiet = true) : Still c c.toStopped := by
  refine ⟨⟨_, resetAll_log _ _, dry_completions _ _⟩, by simp [Client.toStopped], by simp [Client.toStopped], ?_, fun _ => hq, ?_, ?_,
    .inl (by simp [Client.toStopped, edges])⟩ <;>
    rw [toStopped_quiet] <;> simp [State.open]

theorem still_toTerminated {c : Client} (hq : c.ctl.state.quiet = true) : Still c c.toTerminated := by
  refine ⟨⟨_, resetAll_log _ _, dry_completions _ _⟩, by simp [Client.toTerminated], by simp [Client.toTerminated], ?_, fun _ => hq, ?_, ?_,
    .inl (by simp [Client.toTerminated, edges])⟩ <;>
    rw [toTerminated_state] <;> simp [State.open]

theorem still_toConnecting {c : Client} (e : Option Error) (hq : c.ctl.state.quiet = true) : Still c (c.toConnecting e) := by
  unfold Client.toConnecting
  split <;> exact ⟨⟨[], by simp, by simp⟩, rfl, rfl, by simp [State.open], fun _ => hq, by simp, by simp,
    .inl (List.Sublist.refl _)⟩

/-! ## Connections begin and end -/

theorem stream_shutdownFinal {cfg : Config} {c : Client} (e : Error) (h : Each (Streams cfg.outboundAliases) c.ops.log) :
    StreamInv cfg (c.shutdownFinal cfg e) := by
  have h1 : Each (Streams cfg.outboundAliases) (c.ops.onDisconnection cfg).log := by
    rw [onDisconnection_log, ← List.append_assoc]
    exact sound_end (sound_dry h (dry_completions _ _)) (.inl rfl)
  have h2 : recent (c.ops.onDisconnection cfg).log = [] := by
    rw [onDisconnection_log, ← List.append_assoc, recent_one]
    rfl
  have h3 : ∀ k : Control, k.state.quiet = true → StreamInv cfg ⟨c.ops.onDisconnection cfg, k⟩ := by
    intro k hk
    refine ⟨h1, ?_, fun _ => by simp only [h2]; exact ⟨rfl, rfl⟩⟩
    intro ho
    revert hk ho
    simp only
    cases k.state <;> simp [State.open, State.quiet]
  unfold Client.shutdownFinal
  simp only
  split
  · exact h3 _ rfl
  · generalize c.ctl.channelGone (c.ops.lostOnDisconnection cfg) e = k
    have h4 := (still_toStopped (c := ⟨c.ops.onDisconnection cfg, { k with state := .stopped }⟩) rfl).stream (h3 _ rfl)
    exact h4

theorem stream_setup {cfg : Config} {c c' : Client} {err : Option Error} {now : Nat} (hi : StreamInv cfg c)
    (h : c.setup cfg err now = .ok c') : StreamInv cfg c' := by
  unfold Client.setup at h
  split at h
  · cases h; exact stream_shutdownFinal _ hi.each
  · split at h
    · cases h
    · rename_i hst
      have hst : c.ctl.state = .connecting := by simpa using hst
      obtain ⟨q1, q2⟩ := hi.quiet (by rw [hst]; rfl)
      split at h
      · cases h
        exact ⟨hi.each, by simp [State.open], by simp [State.quiet]⟩
      · unfold Client.toMqttConnect at h
        split at h
        · cases h
        · split at h
          · cases h
          · rename_i hc
            have hc : c.ops.current = none := by simpa using hc
            simp only at h
            have shut : ∀ (s : OpState) (k : Control) (e : Error), s.log = c.ops.log → k.state = .mqttConnect →
                k.slot = true → StreamInv cfg ⟨s, k.shutdownChannel e⟩ := by
              intro s k e hl hk hs
              have hst : (k.shutdownChannel e).state = .channelShutdown := by
                unfold Control.shutdownChannel
                simp [hk, hs, State.open]
              exact ⟨by rw [hl]; exact hi.each, by simp [hst, State.open], by simp [hst, State.quiet]⟩
            split at h
            · cases h; exact shut _ _ _ rfl rfl rfl
            · split at h
              · cases h; exact shut _ _ _ rfl rfl rfl
              · cases h
                refine ⟨hi.each, fun _ => ⟨?_, by simp [OpState.pushFront], fun _ => rfl, by simp⟩, by simp [State.quiet]⟩
                simp only [OpState.pushFront, q1, q2]
                rfl

/-- An answer to CONNECT. -/
theorem stream_onConnack {cfg : Config} {c c' : Client} {v : ConnackView} {now : Nat} (hi : StreamInv cfg c)
    (hl : live c.ops.log = false) (hs : AliasFits c.ctl.settings) (hv : inRange (.connack v) = true)
    (hst : c.ctl.state = .mqttConnect) (h : c.onConnack cfg v now = .ok c') : StreamInv cfg c' := by
  unfold Client.onConnack at h
  split at h
  · split at h
    · cases h
    · rename_i k hk
      unfold Control.emitFinalConnack at hk
      split at hk
      · cases hk
      · cases hk; cases h; exact (still_emitShutdown ..).stream hi
  · simp only at h
    have hi1 : StreamInv cfg { c with ctl := { c.ctl with settings := c.ctl.settings.applyConnack v } } := by
      have h1 : Still c { c with ctl := { c.ctl with settings := c.ctl.settings.applyConnack v } } := Still.ctl (.inl rfl)
      exact h1.stream hi
    split at h
    · split at h
      · cases h
      · rename_i k hk
        unfold Control.emitFinalConnack at hk
        split at hk
        · cases hk
        · cases hk; cases h; exact (still_emitShutdown ..).stream hi1
    · cases h
      have hf := hi.opened (by rw [hst]; rfl)
      have hfit := aliasFits_applyConnack hv hs
      generalize c.ctl.settings.applyConnack v = st at *
      have hctl := (toConnected_ctl cfg { c with ctl := { c.ctl with settings := st } } now).2
      have hlog : (Client.toConnected cfg { c with ctl := { c.ctl with settings := st } } now).ops.log =
          c.ops.log ++ completions (lostOnConnection cfg st c.ops) .offlinePolicy ++ [.connected st] := by
        simp [Client.toConnected]
      obtain ⟨d1, d2, _⟩ := dry_log (log := c.ops.log) (dry_completions (lostOnConnection cfg st c.ops) .offlinePolicy)
      refine ⟨?_, fun _ => ⟨?_, ?_, ?_, ?_⟩, ?_⟩
      · rw [hlog]
        refine sound_end (sound_dry hi.each (dry_completions _ _)) (.inr ⟨⟨_, rfl⟩, ?_⟩)
        rw [dry_live (dry_completions _ _)]
        exact hl
      · rw [hlog, recent_one]
        simp only [recentOne, wires_append, written_append, d1, d2]
        have : (Client.toConnected cfg { c with ctl := { c.ctl with settings := st } } now).ops.encoder.steps =
            c.ops.encoder.steps := by simp [Client.toConnected]
        rw [this]
        simpa [wires, written] using hf.bytes
      · have : (Client.toConnected cfg { c with ctl := { c.ctl with settings := st } } now).ops.encoder.steps =
            c.ops.encoder.steps := by simp [Client.toConnected]
        rw [this]
        exact hf.ok
      · have : (Client.toConnected cfg { c with ctl := { c.ctl with settings := st } } now).ops.encoder.steps =
            c.ops.encoder.steps := by simp [Client.toConnected]
        rw [this]
        have : (Client.toConnected cfg { c with ctl := { c.ctl with settings := st } } now).ops.current =
            c.ops.current := by simp [Client.toConnected]
        rw [this]
        exact hf.idle
      · intro _ _
        have : (Client.toConnected cfg { c with ctl := { c.ctl with settings := st } } now).ops.encoder.resolver =
            some ((TopicAlias.Outbound.new cfg.outboundAliases).reset st.topicAliasMaximumToServer) := by
          simp [Client.toConnected]
        refine ⟨_, this, ?_, ?_⟩
        · rw [hlog, hearing_one]
          refine TopicAlias.aliasInv_reset (s := .fresh 0) ?_ hfit
          cases cfg.outboundAliases with
          | manual => exact .manual rfl (by simp)
          | lru => exact .lruOff rfl
          | disabled => exact .disabled
        · rw [hlog, hearing_one, resolving_one]
          exact ⟨hfit, rfl⟩
      · intro hq
        rcases hctl with hctl | hctl <;> rw [hctl] at hq <;> cases hq

/-! ## Serving the queue -/

/-- An operation is set up. -/
theorem start_fine {cfg : Config} {c : Client} {op : Op} {rest : List Op} {s : OpState} {ok : Bool} {buf : Bytes}
    (hz : SizeInv cfg c) (hq : c.ops.queued = op :: rest) (hc : c.ops.current = none)
    (he : c.invalid cfg op.packet = none)
    (hst : c.ctl.state = .connected ∨ c.ctl.state = .mqttConnect ∧ isConnect op.packet = true ∨
      c.ctl.state = .cleanDisconnect ∧ isDisconnect op.packet = true)
    (hs : ({ c.ops with queued := rest } : OpState).setCurrent op = .ok (s, ok)) (hf : Fine cfg c buf)
    (hi : Each (Streams cfg.outboundAliases) c.ops.log) : Each (Streams cfg.outboundAliases) s.log ∧ (ok = true → Fine cfg ⟨s, c.ctl⟩ buf) := by
  rcases setCurrent_cases hs with ⟨rfl, p, n, enc, rfl, _⟩ | ⟨rfl, op', n, enc, rfl, hb, ha⟩
  · exact ⟨sound_dry hi (by simp [dry]), by simp⟩
  · have hheld : op ∈ c.ops.held := by simp [OpState.held, hq]
    have hsteps := hf.idle hc
    have ha : c.ops.encoder.append op'.packet = .ok enc := ha
    obtain ⟨q, steps, _, hacc, hes⟩ := append_accepted ha
    have hp : ∃ i, op'.packet = withPacketId op.packet i := by
      rcases bind_cases hb with ⟨_, _, rfl⟩ | ⟨_, id, _, _, rfl⟩
      · refine ⟨packetId op'.packet, ?_⟩
        cases op'.packet <;> rfl
      · exact ⟨id, rfl⟩
    have hqq : ∀ v, op'.packet = .publish v → (v.packetId ≠ 0 ↔ v.qos ≠ 0) := by
      intro v' hv'
      rcases bind_cases hb with ⟨hn, _, rfl⟩ | ⟨hn, id, hid, _, rfl⟩
      · simp only [hv', needsId, requiresAck, packetId, Bool.and_eq_false_iff, bne_eq_false_iff_eq, beq_eq_false_iff_ne] at hn
        refine ⟨fun h1 h2 => ?_, fun h1 => by rcases hn with hn | hn; exact absurd hn h1; exact hn⟩
        have := hz.bare op' hheld (by rw [hv']; simp [requiresAck, h2])
        rw [hv'] at this
        exact h1 this
      · simp only at hv'
        cases hpk : op.packet with
        | publish v =>
          rw [hpk] at hv' hn
          cases hv'
          simp only [needsId, requiresAck, packetId, Bool.and_eq_true, bne_iff_ne, ne_eq, beq_iff_eq] at hn
          have := (findId_range hz.safe.inv.live.next hid).1
          simp only
          exact ⟨fun _ => hn.1, fun _ => by omega⟩
        | _ => rw [hpk] at hv'; cases hv'
    have horg : Origin c.ops.log op.uid op'.packet := by
      obtain ⟨i, hp⟩ := hp
      have := hz.safe.origin op hheld
      rw [hp]
      exact this.congr (by simp)
    -- the server understands
    have hserve : AllRep c.ops.log → Representable op'.packet →
        ∃ s', serve (hearing c.ops.log) ((stepsBytes enc.steps).drop (stepsBytes c.ops.encoder.steps).length) =
          some (s', meaning (unaliased op'.packet)) ∧
          (c.ctl.state = .connected → ∃ r', enc.resolver = some r' ∧ TopicAlias.AliasInv cfg.outboundAliases r' s' ∧
            s'.max < 65536 ∧ ∀ u w, r' = resolving cfg.outboundAliases (c.ops.log ++ [.started u op'.packet w])) ∧
          ∀ v, op'.packet = .publish v → AliasSent cfg.outboundAliases (resolving cfg.outboundAliases c.ops.log)
            (hearing c.ops.log) v ((stepsBytes enc.steps).drop (stepsBytes c.ops.encoder.steps).length) := by
      intro hall hrep
      rcases hst with hst | ⟨hst, hcon⟩ | ⟨hst, hdis⟩
      · obtain ⟨r, h1, h2, h3, h4⟩ := hf.alias hall hst
        subst h4
        obtain ⟨sz, hsz, _⟩ := invalid_none he (.inl hst)
        obtain ⟨s', r', g1, g2, g3, g4, g5, g6⟩ := append_serve h1 h2 h3 horg hrep hqq hsz hp ha
        exact ⟨s', g1, fun _ => ⟨r', g2, g3, by omega, fun u w => by rw [resolving_one, g5]⟩, g6⟩
      · refine ⟨hearing c.ops.log, append_bare _ hrep ?_ (.inl ?_) ha, by simp [hst], fun v hv => ?_⟩
        · obtain ⟨i, hp⟩ := hp
          rw [hp]; revert hcon; cases op.packet <;> simp [isConnect, isUser, withPacketId]
        · obtain ⟨i, hp⟩ := hp
          rw [hp]; revert hcon; cases op.packet <;> simp [isConnect, withPacketId]
        · obtain ⟨i, hp⟩ := hp
          rw [hp] at hv; revert hcon hv; cases op.packet <;> simp [isConnect, withPacketId]
      · obtain ⟨sz, hsz, _⟩ := invalid_none he (.inr hst)
        refine ⟨hearing c.ops.log, append_bare _ hrep ?_ (.inr ?_) ha, by simp [hst], fun v hv => ?_⟩
        · obtain ⟨i, hp⟩ := hp
          rw [hp]; revert hdis; cases op.packet <;> simp [isDisconnect, isUser, withPacketId]
        · obtain ⟨i, hp⟩ := hp
          rw [hp, encodedSize_withPacketId (by revert hdis; cases op.packet <;> simp [isDisconnect, isPublish]), hsz]
          simp
        · obtain ⟨i, hp⟩ := hp
          rw [hp] at hv; revert hdis hv; cases op.packet <;> simp [isDisconnect, withPacketId]
    generalize hw : (stepsBytes enc.steps).drop (stepsBytes c.ops.encoder.steps).length = w at *
    have hw' : stepsBytes enc.steps = w := by
      rw [← hw, hsteps]
      exact (List.drop_zero ..).symm
    refine ⟨?_, fun _ => ⟨?_, ?_, by simp, ?_⟩⟩
    · refine hi.append fun a x b hab => ?_
      cases a with
      | cons y a => simp at hab
      | nil =>
        simp only [List.nil_append, List.cons.injEq] at hab
        obtain ⟨rfl, _⟩ := hab
        refine ⟨by simp, ?_, ?_, by simp, ?_⟩
        · intro u p w' hx hall hrep
          cases hx
          rw [List.append_nil] at hall ⊢
          obtain ⟨s', h1, _⟩ := hserve hall hrep
          exact ⟨s', h1⟩
        · intro u p w' hx hpub
          cases hx
          rw [List.append_nil]
          obtain ⟨i, hp⟩ := hp
          rw [hp] at hpub
          rcases hst with hst | ⟨hst, hcon⟩ | ⟨hst, hdis⟩
          · exact hz.safe.inv.live.up hst
          · revert hcon hpub; cases op.packet <;> simp [isConnect, isPublish, withPacketId]
          · revert hdis hpub; cases op.packet <;> simp [isDisconnect, isPublish, withPacketId]
        · intro u v w' hx hall hrep
          injection hx with _ hx hw'
          subst hw'
          rw [List.append_nil] at hall ⊢
          rw [← hx] at hrep
          obtain ⟨_, _, _, h1⟩ := hserve hall hrep
          exact h1 v hx
    · simp only [recent_one, recentOne, wires_append, written_append, List.flatten_append]
      rw [hf.bytes, hsteps]
      have e1 : wires [.started op'.uid op'.packet w] = [w] := rfl
      have e2 : written [.started op'.uid op'.packet w] = [] := rfl
      rw [e1, e2, hw']
      simp [stepsBytes]
    · simp only
      rw [hes, hsteps]
      exact (pushSteps_true hacc.2).2
    · intro hall hst'
      simp only at hall hst' ⊢
      obtain ⟨s', h1, h2, _⟩ := hserve hall.left (hall op'.uid op'.packet w (by simp))
      obtain ⟨r', h3, h4, h5, h6⟩ := h2 hst'
      refine ⟨r', h3, ?_⟩
      rw [hearing_one, hear, h1]
      exact ⟨h4, h5, h6 _ _⟩

theorem takeNext_still {cfg : Config} {env : Env} (q : List Op) (c : Client) (hq : c.ops.queued = q) :
    Still c (c.takeNext cfg env q).1 := by
  induction q generalizing c with
  | nil => exact .refl _
  | cons op rest ih =>
    have h0 : Still c { c with ops := { c.ops with queued := rest } } :=
      .ops (List.append_nil _).symm (by simp) rfl rfl (by rw [hq]; exact (List.sublist_cons_self ..).filter _)
    rw [Client.takeNext]
    split
    · exact .refl _
    · simp only
      split
      · exact h0
      · split
        · exact h0.trans (still_complete ..)
        · exact (h0.trans (still_complete ..)).trans (ih _ rfl)

theorem load_fine {cfg : Config} {env : Env} {c c' : Client} {e : Option Error} {buf : Bytes} (hz : SizeInv cfg c)
    (hcan : c.ops.current = none → CanTake c.ctl.state c.ops.queued ∧ Flows c c.ops.queued) (hf : Fine cfg c buf)
    (hi : Each (Streams cfg.outboundAliases) c.ops.log) (h : c.load cfg env = .ok (c', e)) :
    Each (Streams cfg.outboundAliases) c'.ops.log ∧ (e = none → Fine cfg c' buf) := by
  unfold Client.load at h
  split at h
  · cases h; exact ⟨hi, fun _ => hf⟩
  · rename_i hc
    have hc : c.ops.current = none := by simpa using hc
    rcases hx : c.takeNext cfg env c.ops.queued with ⟨c2, t⟩
    have hstill := takeNext_still (cfg := cfg) (env := env) c.ops.queued c rfl
    rw [hx] at h hstill
    have h1 := takeNext_moves (g := .any) rfl hc (hcan hc).1 (hcan hc).2 hx
    cases t with
    | nothing => cases h; exact ⟨hstill.each hi, fun _ => hstill.fine hf⟩
    | failed => cases h; exact ⟨hstill.each hi, by simp⟩
    | next op =>
      rcases h1 with h1 | ⟨o, r, c1, h1, h2, h3, h4, h5, h6, h7, h8⟩
      · exact absurd rfl (h1.1 op)
      · cases h1
        simp only at h
        split at h
        · cases h
        · rename_i s ok hs
          cases h
          have hz1 : SizeInv cfg c1 := moves_inv (P := SizeInv cfg) (fun _ _ => size_move) h2 hz
          subst h6
          have hf2 := hstill.fine hf
          have hf1 : Fine cfg c1 buf := ⟨hf2.bytes, hf2.ok, hf2.idle, hf2.alias⟩
          have hi1 : Each (Streams cfg.outboundAliases) c1.ops.log := hstill.each hi
          have h9 := start_fine hz1 h3 h4 h5 h7 hs hf1 hi1
          refine ⟨h9.1, fun he => h9.2 ?_⟩
          cases ok with
          | true => rfl
          | false => simp at he

theorem serviceLoop_fine {cfg : Config} {env : Env} {fuel k : Nat} {buf : Buf} {c : Client}
    {r : Client × Buf × Option Error} (hz : SizeInv cfg c) (hb : buf.data.length ≤ buf.cap)
    (hcan : c.ops.current = none → CanTake c.ctl.state c.ops.queued ∧ Flows c c.ops.queued) (hf : Fine cfg c buf.data)
    (hi : Each (Streams cfg.outboundAliases) c.ops.log) (h : c.serviceLoop cfg env fuel k buf = .ok r) :
    Each (Streams cfg.outboundAliases) r.1.ops.log ∧ (r.2.2 = none → Fine cfg r.1 r.2.1.data) := by
  induction fuel generalizing c k buf with
  | zero => simp only [Client.serviceLoop] at h; cases h; exact ⟨hi, fun _ => hf⟩
  | succ fuel ih =>
    rw [Client.serviceLoop] at h
    split at h
    · cases h
    · rename_i c1 e hl
      cases h
      exact ⟨(load_fine hz hcan hf hi hl).1, by simp⟩
    · rename_i c1 hl
      obtain ⟨hi1, hf1⟩ := load_fine hz hcan hf hi hl
      have hf1 := hf1 rfl
      have m1 := load_moves (g := .any) hcan hl
      have hz1 : SizeInv cfg c1 := moves_inv (P := SizeInv cfg) (fun _ _ => size_move) m1 hz
      split at h
      · cases h; exact ⟨hi1, fun _ => hf1⟩
      · rename_i op hcur
        obtain ⟨out, ho, hlen, hbytes, hok, _⟩ := encodeSteps_spec c1.ops.encoder.steps hf1.ok buf hb
        split at h
        · rename_i buf2 enc henc
          cases h
          refine ⟨hi1, fun _ => ?_⟩
          unfold Encoder.encodeToBuffer at henc
          rcases hx : encodeSteps c1.ops.encoder.steps buf with ⟨res, b2, st⟩
          rw [hx] at henc ho hbytes hok
          cases res with
          | finished => cases henc
          | outOfRoom =>
            cases henc
            refine ⟨?_, hok, fun hn => ?_, hf1.alias⟩
            · simp only at ho hbytes ⊢
              rw [hf1.bytes, ho, hbytes]
              simp
            · simp only at hn
              rw [hcur] at hn
              cases hn
        · rename_i buf2 enc henc
          have m2 := m1.snoc (.encode c1 op buf buf2 enc _ hcur henc)
          have hfin := encodeToBuffer_finished henc
          have henc' : enc.resolver = c1.ops.encoder.resolver ∧ buf2 = { buf with data := buf.data ++ out } ∧
              stepsBytes c1.ops.encoder.steps = out := by
            unfold Encoder.encodeToBuffer at henc
            rcases hx : encodeSteps c1.ops.encoder.steps buf with ⟨res, b2, st⟩
            obtain ⟨out', o1, _, o2, _, ocase⟩ := encodeSteps_spec c1.ops.encoder.steps hf1.ok buf hb
            rw [hx] at henc ho hbytes ocase
            cases res with
            | outOfRoom => cases henc
            | finished =>
              simp only [reduceCtorEq, true_and, false_and, or_false] at ocase
              cases henc
              simp only at ho hbytes
              rw [ocase] at hbytes
              exact ⟨rfl, ho, by rw [hbytes]; simp [stepsBytes]⟩
          obtain ⟨hres, hbuf2, hout⟩ := henc'
          split at h
          · cases h
          · rename_i c2 hfn
            unfold Client.finish at hfn
            split at hfn
            · cases hfn
            · rename_i s hs
              have m3 := m2.snoc (.finish _ op (env.loopNow k) s hcur hfin hs trivial)
              have m4 : Moves cfg c c2 := by
                cases hfn
                simp only
                split
                · exact m3.append (.k (.sent ..))
                · exact m3
              have hz2 : SizeInv cfg c2 := moves_inv (P := SizeInv cfg) (fun _ _ => size_move) m4 hz
              have hs' : s.log = c1.ops.log ++ [.encoded op.uid op.packet] ∧ s.encoder = enc := by
                obtain ⟨_, ⟨_, _, rfl⟩ | ⟨_, rfl⟩⟩ := finish_cases hs <;> exact ⟨rfl, rfl⟩
              have hc2 : c2.ops = s ∧ c2.ctl.state = c1.ctl.state := by
                cases hfn
                refine ⟨rfl, ?_⟩
                simp only
                split <;> simp
              have hdry : ∀ e ∈ [Effect.encoded op.uid op.packet], dry e = true := by simp [dry]
              obtain ⟨d1, d2, d3⟩ := dry_log (log := c1.ops.log) hdry
              have hi2 : Each (Streams cfg.outboundAliases) c2.ops.log := by
                rw [hc2.1, hs'.1]; exact sound_dry hi1 hdry
              have hf2 : Fine cfg c2 buf2.data := by
                refine ⟨?_, ?_, ?_, ?_⟩
                · rw [hc2.1, hs'.1, hs'.2, d1, d2, hf1.bytes, hfin, hbuf2, hout]
                  simp [stepsBytes]
                · rw [hc2.1, hs'.2, hfin]; simp
                · rw [hc2.1, hs'.2]; exact fun _ => hfin
                · rw [hc2.1, hc2.2, hs'.1, hs'.2, hres, d3, dry_resolving hdry]
                  exact fun ha => hf1.alias ha.left
              split at h
              · rename_i hserve
                exact ih hz2 (by rw [hbuf2]; exact hlen) (serviceTime_take hserve) hf2 hi2 h
              · cases h; exact ⟨hi2, fun _ => hf2⟩

theorem serviceOps_fine {cfg : Config} {env : Env} {c : Client} {r : Client × Option Error} (hz : SizeInv cfg c)
    (hf : Fine cfg c []) (hi : Each (Streams cfg.outboundAliases) c.ops.log) (h : c.serviceOps cfg env = .ok r) :
    Each (Streams cfg.outboundAliases) r.1.ops.log ∧ (r.2 = none → Fine cfg r.1 []) := by
  unfold Client.serviceOps at h
  split at h
  · cases h; exact ⟨hi, fun _ => hf⟩
  · rename_i hs
    have hs := serviceTime_take (by simpa using hs)
    split at h
    · cases h; exact ⟨hi, fun _ => hf⟩
    · split at h
      · cases h
      · rename_i c1 b e hl
        cases h
        exact ⟨(serviceLoop_fine hz (by simp) hs hf hi hl).1, by simp⟩
      · rename_i c1 b hl
        obtain ⟨h1, h2⟩ := serviceLoop_fine hz (by simp) hs hf hi hl
        have h2 := h2 rfl
        simp only at h1 h2
        split at h
        · rename_i hb0
          cases h
          rw [List.length_eq_zero_iff.1 hb0] at h2
          exact ⟨h1, fun _ => h2⟩
        · split at h
          · cases h
            exact ⟨h1, by simp⟩
          · cases h
            refine ⟨?_, fun _ => ⟨?_, h2.ok, h2.idle, ?_⟩⟩
            · refine h1.append fun a x b' hab => ?_
              cases a with
              | cons y a => simp at hab
              | nil =>
                simp only [List.nil_append, List.cons.injEq] at hab
                obtain ⟨rfl, _⟩ := hab
                rw [List.append_nil]
                refine ⟨?_, by simp, by simp, by simp⟩
                intro d hd
                cases hd
                exact ⟨stepsBytes c1.ops.encoder.steps, h2.bytes.symm⟩
            · simp only [recent_one, recentOne, wires_append, written_append]
              have e1 : wires [.wrote b.data] = [] := rfl
              have e2 : written [.wrote b.data] = b.data := by simp [written]
              rw [e1, e2, List.append_nil, List.append_nil]
              exact h2.bytes
            · simp only [hearing_one, hear, resolving_one, resolvingOne]
              exact fun ha => h2.alias ha.left

/-- What the end of a service task does to a client whose channel is open. -/
theorem afterService_stream {cfg : Config} {r : Client × Option Error} (h1 : Each (Streams cfg.outboundAliases) r.1.ops.log)
    (h2 : r.2 = none → Fine cfg r.1 []) (hq : r.1.ctl.state.quiet = false)
    (hs : r.1.ctl.state.open = true → r.1.ctl.slot = true) : StreamInv cfg (Client.afterService r).1 := by
  unfold Client.afterService
  split
  · rename_i he
    exact ⟨h1, fun _ => h2 he, by rw [hq]; simp⟩
  · rename_i e _
    have hx : ((r.1.ctl).shutdownChannel e).state = .channelShutdown := by
      obtain ⟨e', hx⟩ := shutdownChannel_eq r.1.ctl e
      rw [hx]
      cases ho : r.1.ctl.state.open with
      | true => rw [hs ho]; simp
      | false =>
        have : r.1.ctl.state = .channelShutdown := by
          revert ho hq
          cases r.1.ctl.state <;> simp [State.open, State.quiet]
        simp [this]
    exact ⟨h1, by simp [hx, State.open], by simp [hx, State.quiet]⟩

/-- All that is needed. -/
structure WholeInv (cfg : Config) (c : Client) : Prop where
  size : SizeInv cfg c
  event : EventInv c.ctl

theorem whole_moves {cfg : Config} {c c' : Client} (h : WholeInv cfg c) (m : Moves cfg c c') : WholeInv cfg c' :=
  moves_inv (P := WholeInv cfg)
    (fun _ _ h m => ⟨size_move h.size m, event_move h.size.safe.inv.live h.size.safe.life h.event m⟩) m h

theorem serviceOps_stream {cfg : Config} {env : Env} {c : Client} {r : Client × Option Error} (hw : WholeInv cfg c)
    (hi : StreamInv cfg c) (ho : c.ctl.state.open = true) (h : c.serviceOps cfg env = .ok r) :
    StreamInv cfg (Client.afterService r).1 := by
  obtain ⟨h1, h2⟩ := serviceOps_fine hw.size (hi.opened ho) hi.each h
  have hw1 := whole_moves hw (serviceOps_moves (g := .any) h (fun _ => trivial))
  refine afterService_stream h1 h2 ?_ hw1.event.opened
  rcases serviceOps_state h with hs | hs
  · rw [hs]; revert ho; cases c.ctl.state <;> simp [State.open, State.quiet]
  · rw [hs]; rfl

theorem stream_service {cfg : Config} {env : Env} {c c' : Client} (hw : WholeInv cfg c) (hi : StreamInv cfg c)
    (h : c.service cfg env = .ok c') : StreamInv cfg c' := by
  unfold Client.service at h
  split at h
  · rename_i hst
    have hq : c.ctl.state.quiet = true := by rw [hst]; rfl
    split at h
    · cases h; exact (still_toConnecting _ hq).stream hi
    · cases h; exact (still_toTerminated hq).stream hi
    · cases h; exact hi
  · rename_i hst
    unfold Client.serviceMqttConnect at h
    split at h
    · cases h; exact (still_emitShutdown ..).stream hi
    · split at h
      · cases h; exact (still_emitShutdown ..).stream hi
      · split at h
        · cases h
        · rename_i r hr
          cases h
          exact serviceOps_stream hw hi (by rw [hst]; rfl) hr
  · rename_i hst
    unfold Client.serviceConnected at h
    split at h
    · cases h; exact (still_emitShutdown ..).stream hi
    · split at h
      · cases h
        have h1 : Still c { c with ctl := c.ctl.emitFinal .pingTimeout } := Still.ctl (.inl (by simp))
        exact (h1.trans (still_shutdownClean ..)).stream hi
      · simp only at h
        split at h
        · cases h
        · rename_i c1 hc1
          have m1 : Moves cfg c (if env.now ≥ c.ctl.nextPing then c.queuePing env.queueNow else c) := by
            split
            · exact .cons (.push c .pingreq (.inl rfl) (by simp [hst]) (by simp [isConnect]))
                (.cons (.pinged _ c.ops.nextUid) (.k (.resetPing ..)))
            · exact .nil _
          have s1 : Still c (if env.now ≥ c.ctl.nextPing then c.queuePing env.queueNow else c) := by
            split
            · exact still_queuePing ..
            · exact .refl _
          have m2 := m1.append (clientCheckTimeouts_moves (g := .any) hc1 trivial)
          have s2 := s1.trans (still_checkTimeouts hc1)
          have ho : c1.ctl.state.open = true := by
            rw [timeouts_state hc1]
            split <;> simp [Client.queuePing, hst, State.open]
          split at h
          · cases h
          · rename_i r hr
            cases h
            exact serviceOps_stream (whole_moves hw m2) (s2.stream hi) ho hr
  · rename_i hst
    unfold Client.serviceCleanDisconnect at h
    split at h
    · cases h
    · rename_i r hr
      have h1 := serviceOps_stream hw hi (by rw [hst]; rfl) hr
      split at h
      · rename_i c1 hc1
        cases h
        rw [hc1] at h1
        exact h1
      · rename_i c1 hc1
        rw [hc1] at h1
        exact (still_checkTimeouts h).stream h1
  · rename_i hst
    have hq : c.ctl.state.quiet = true := by rw [hst]; rfl
    split at h
    · cases h; exact (still_toStopped hq).stream hi
    · split at h
      · cases h; exact (still_toConnecting _ hq).stream hi
      · cases h; exact hi
  · cases h; exact hi

theorem stream_step {cfg : Config} {c c' : Client} {e : Event} (hw : WholeInv cfg c) (hi : StreamInv cfg c)
    (he : Enabled c e) (h : step cfg c e = .ok c') : StreamInv cfg c' := by
  cases e with
  | submit p t x => cases h; exact (still_submit cfg c t x he.1).stream hi
  | setDesired d v => cases h; exact (still_setDesired ..).stream hi
  | service env => exact stream_service hw hi h
  | setup err now => exact stream_setup hi h
  | shutdown e => cases h; exact stream_shutdownFinal _ hi.each
  | writeComplete e => cases h; exact (still_writeComplete ..).stream hi
  | packet p a now =>
    simp only [step] at h
    unfold Client.onPacket at h
    split at h
    · rename_i hst
      split at h
      · exact stream_onConnack hi (hw.size.safe.inv.live.down (.inr hst)) hw.size.safe.alias.fits he.2 hst h
      · cases h; exact (still_shutdownClean ..).stream hi
    · exact (still_onPacketConnected h).stream hi
    · exact (still_onPacketConnected h).stream hi
    · cases h; exact hi
  | readFailed e => cases h; exact (still_readFailed ..).stream hi
  | invoke ctl => cases h; exact (still_invoke ..).stream hi
  | resetConnection => cases h; exact (still_resetConnection ..).stream hi

theorem reachable_stream {cfg : Config} {c : Client} (h : Reachable cfg c) : StreamInv cfg c := by
  induction h with
  | new => exact ⟨Each.nil _, by simp [Client.new, State.open], fun _ => ⟨rfl, rfl⟩⟩
  | step hr he hs ih => exact stream_step ⟨reachable_size hr, reachable_event hr⟩ ih he hs

/-! ## Whole connections -/

theorem begun_append (a b : List Effect) : begun (a ++ b) = begun a ++ begun b := by simp [begun]

theorem live_snoc (log : List Effect) (e : Effect) : live (log ++ [e]) =
    (match e with | .connected _ => true | .disconnected => false | _ => live log) := by
  simp only [live, List.foldl_append, List.foldl_cons, List.foldl_nil]
  cases e <;> rfl

theorem snoc_rec {α : Type} {P : List α → Prop} (hnil : P []) (h : ∀ a x, P a → P (a ++ [x])) (l : List α) : P l := by
  have : ∀ n (l : List α), l.length = n → P l := by
    intro n
    induction n with
    | zero => intro l hl; rw [List.length_eq_zero_iff.1 hl]; exact hnil
    | succ n ih =>
      intro l hl
      have hne : l ≠ [] := by intro h; rw [h] at hl; cases hl
      rw [← List.dropLast_concat_getLast hne]
      exact h _ _ (ih _ (by simp [hl]))
  exact this _ l rfl

theorem wires_begun (l : List Effect) : (wires l).length = (begun l).length := by
  induction l with
  | nil => rfl
  | cons e l ih => cases e <;> simp_all [wires, begun]

/-- What has been written on a connection is the beginning of the packets begun on it. -/
theorem written_prefix {b : TopicAlias.Behavior} {a : List Effect} (h : Each (Streams b) a) : written (recent a) <+: (wires (recent a)).flatten := by
  induction a using snoc_rec with
  | hnil => exact List.nil_prefix
  | h a x ih =>
    have ha : Each (Streams b) a := fun a' y c hb => h a' y (c ++ [x]) (by rw [hb]; simp)
    have ih := ih ha
    rw [recent_one]
    cases x with
    | disconnected => exact List.nil_prefix
    | wrote d =>
      simp only [recentOne, wires_append, written_append]
      have := (h a (.wrote d) [] rfl).1 d rfl
      simpa [wires, written] using this
    | started u p w =>
      simp only [recentOne, wires_append, written_append, List.flatten_append]
      refine List.IsPrefix.trans ?_ (List.prefix_append ..)
      simpa [written] using ih
    | _ => simpa [recentOne, wires_append, written_append, wires, written] using ih

theorem listen_append {s s' : AliasServer} {ws : List Bytes} {ps : List Packet} (h : listen s ws = some (s', ps))
    {w : Bytes} {s'' : AliasServer} {p : Packet} (hw : serve s' w = some (s'', p)) :
    listen s (ws ++ [w]) = some (s'', ps ++ [p]) := by
  induction ws generalizing s ps with
  | nil => cases h; simp [listen, hw]
  | cons v ws ih =>
    rw [listen] at h
    cases hv : serve s v with
    | none => rw [hv] at h; cases h
    | some x =>
      rw [hv] at h
      simp only [Option.bind_some, Option.map_eq_some_iff, Prod.mk.injEq] at h
      obtain ⟨y, hy, rfl, rfl⟩ := h
      rw [List.cons_append, listen, hv]
      simp [ih hy]

theorem listen_take {s s' : AliasServer} {ws : List Bytes} {ps : List Packet} (h : listen s ws = some (s', ps)) (n : Nat) :
    (listen s (ws.take n)).map (·.2) = some (ps.take n) := by
  induction ws generalizing s ps n with
  | nil => cases h; simp [listen]
  | cons v ws ih =>
    rw [listen] at h
    cases hv : serve s v with
    | none => rw [hv] at h; cases h
    | some x =>
      rw [hv] at h
      simp only [Option.bind_some, Option.map_eq_some_iff, Prod.mk.injEq] at h
      obtain ⟨y, hy, rfl, rfl⟩ := h
      cases n with
      | zero => rfl
      | succ n =>
        have := ih hy n
        rw [Option.map_eq_some_iff] at this
        obtain ⟨z, hz, hz2⟩ := this
        rw [List.take_succ_cons, listen, hv]
        simp [hz, hz2]

theorem serve_some {s : AliasServer} {w : Bytes} {x : AliasServer × Packet} (h : serve s w = some x) : packet w ≠ none := by
  intro hn
  unfold serve at h
  rw [hn] at h
  cases h

theorem listen_packet {s : AliasServer} {ws : List Bytes} {x : AliasServer × List Packet} (h : listen s ws = some x) :
    ∀ w ∈ ws, packet w ≠ none := by
  induction ws generalizing s x with
  | nil => simp
  | cons v ws ih =>
    rw [listen] at h
    cases hv : serve s v with
    | none => rw [hv] at h; cases h
    | some y =>
      rw [hv] at h
      simp only [Option.bind_some, Option.map_eq_some_iff] at h
      obtain ⟨z, hz, _⟩ := h
      intro w hw
      rcases List.mem_cons.1 hw with rfl | hw
      · exact serve_some hv
      · exact ih hz w hw

/-- Packets other than PUBLISH teach a server no aliases. -/
theorem serve_bare {s t : AliasServer} {w : Bytes} {x : AliasServer × Packet} {p : Outgoing} (hp : isPublish p = false)
    (h : serve s w = some x) (hx : x.2 = meaning p) : x.1 = s ∧ serve t w = some (t, x.2) := by
  unfold serve at h ⊢
  cases hk : packet w with
  | none => rw [hk] at h; cases h
  | some q =>
    rw [hk] at h
    cases q with
    | publish q =>
      simp only [Option.map_eq_some_iff] at h
      obtain ⟨r, _, rfl⟩ := h
      simp only at hx
      cases p <;> first | cases hp; done | cases hx
    | _ => cases h; exact ⟨rfl, rfl⟩

/-- A server that grants the aliases of its CONNACK understands all that is sent on a connection. -/
theorem listen_all {b : TopicAlias.Behavior} {a : List Effect} (h : Each (Streams b) a) (hrep : AllRep a) (m : Nat)
    (hm : ∀ st, .connected st ∈ recent a → st.topicAliasMaximumToServer = m) :
    ∃ s, listen (.fresh m) (wires (recent a)) = some (s, (begun (recent a)).map fun p => meaning (unaliased p)) ∧
      s = if live a then hearing a else .fresh m := by
  induction a using snoc_rec with
  | hnil => exact ⟨_, rfl, rfl⟩
  | h a x ih =>
    have ha : Each (Streams b) a := fun a' y c hb => h a' y (c ++ [x]) (by rw [hb]; simp)
    cases hx : decide (x = .disconnected) with
    | true =>
      have hx : x = .disconnected := by simpa using hx
      subst hx
      rw [recent_one, live_snoc]
      exact ⟨_, rfl, rfl⟩
    | false =>
      have hx : x ≠ .disconnected := by simpa using hx
      have hr : recent (a ++ [x]) = recent a ++ [x] := by
        rw [recent_one]
        cases x <;> first | rfl | exact absurd rfl hx
      rw [hr] at hm ⊢
      obtain ⟨s, h1, h2⟩ := ih ha hrep.left fun st hs => hm st (List.mem_append_left _ hs)
      have hsound := h a x [] rfl
      rw [wires_append, begun_append, List.map_append]
      cases x with
      | disconnected => exact absurd rfl hx
      | started u p w =>
        have e1 : wires [.started u p w] = [w] := rfl
        have e2 : begun [.started u p w] = [p] := rfl
        rw [e1, e2, live_snoc, hearing_one]
        obtain ⟨s', hs'⟩ := hsound.2.1 u p w rfl hrep.left (hrep u p w (by simp))
        cases hl : live a with
        | true =>
          rw [hl, if_pos rfl] at h2
          subst h2
          exact ⟨s', listen_append h1 hs', by simp [hear, hs']⟩
        | false =>
          rw [hl] at h2
          have hpub : isPublish (unaliased p) = false := by
            have := hsound.2.2.1 u p w rfl
            cases hp : isPublish p with
            | true => rw [this hp] at hl; cases hl
            | false => revert hp; cases p <;> simp [isPublish, unaliased]
          have hb := serve_bare (t := s) hpub hs' rfl
          exact ⟨s, listen_append h1 hb.2, by simp [h2]⟩
      | connected st =>
        have e1 : wires [.connected st] = [] := rfl
        have e2 : begun [.connected st] = [] := rfl
        have hl := hsound.2.2.2.1 st rfl
        have := hm st (by simp)
        rw [e1, e2, live_snoc, hearing_one, List.append_nil, List.map_nil, List.append_nil]
        rw [hl] at h2
        exact ⟨s, h1, by rw [h2, hear, this]; rfl⟩
      | _ =>
        rw [live_snoc, hearing_one]
        exact ⟨s, by simpa [wires, begun] using h1, h2⟩

end Mqtt.Client5
