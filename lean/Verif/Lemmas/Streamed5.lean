import Verif.Spec.Stream5
import Verif.Lemmas.Client5Size
import Verif.Props.C22
import Verif.Props.C56

/-!
What a server reads of packets the MQTT 5 client encodes.
-/
namespace Mqtt.Spec5

open Mqtt.Spec

/-! ## Streams of packets -/

theorem vbiOf_append {k : Nat} {a : Bytes} {n : Nat} {r : Bytes} (h : vbiOf k a = some (n, r)) (b : Bytes) :
    vbiOf k (a ++ b) = some (n, r ++ b) := by
  induction k generalizing a n r with
  | zero => cases h
  | succ k ih =>
    cases a with
    | nil => cases h
    | cons x a =>
      rw [vbiOf] at h
      rw [List.cons_append, vbiOf]
      split at h
      · rename_i hx
        rw [if_pos hx]
        cases h
        rfl
      · rename_i hx
        rw [if_neg hx]
        cases hv : vbiOf k a with
        | none => rw [hv] at h; cases h
        | some y =>
          obtain ⟨m, q⟩ := y
          rw [hv] at h
          cases h
          rw [ih hv]

theorem frame_some {w : Bytes} (h : packet w ≠ none) :
    ∃ b r n body, w = b :: r ∧ vbi r = some (n, body) ∧ n = body.length := by
  cases w with
  | nil => exact absurd rfl h
  | cons b r =>
    cases hv : vbi r with
    | none => exact absurd (by simp [packet, frame, byte, hv]) h
    | some x =>
      obtain ⟨n, body⟩ := x
      by_cases hn : n = body.length
      · exact ⟨b, r, n, body, rfl, hv, hn⟩
      · exact absurd (by simp [packet, frame, byte, hv, hn]) h

theorem vbiOf_suffix {k : Nat} {a : Bytes} {n : Nat} {r : Bytes} (h : vbiOf k a = some (n, r)) : r <:+ a := by
  induction k generalizing a n r with
  | zero => cases h
  | succ k ih =>
    cases a with
    | nil => cases h
    | cons x a =>
      rw [vbiOf] at h
      split at h
      · cases h; exact List.suffix_cons ..
      · cases hv : vbiOf k a with
        | none => rw [hv] at h; cases h
        | some y =>
          obtain ⟨m, q⟩ := y
          rw [hv] at h
          cases h
          exact (ih hv).trans (List.suffix_cons ..)

/-- No packet begins another one. -/
theorem packet_unique {w w' r r' : Bytes} (h : packet w ≠ none) (h' : packet w' ≠ none) (he : w ++ r = w' ++ r') : w = w' := by
  obtain ⟨b, x, n, body, rfl, hv, hn⟩ := frame_some h
  obtain ⟨b', x', n', body', rfl, hv', hn'⟩ := frame_some h'
  have h1 := vbiOf_append hv r
  have h2 := vbiOf_append hv' r'
  simp only [List.cons_append, List.cons.injEq] at he
  rw [he.2] at h1
  rw [h1] at h2
  simp only [Option.some.injEq, Prod.mk.injEq] at h2
  have hl : body.length = body'.length := by omega
  have hbody := (List.append_inj h2.2 hl)
  have h3 := congrArg List.length he.2
  obtain ⟨p, hp⟩ := vbiOf_suffix hv
  obtain ⟨p', hp'⟩ := vbiOf_suffix hv'
  have hx : x.length = x'.length := by
    have := congrArg List.length hbody.2
    simp only [List.length_append] at h3
    omega
  rw [he.1, (List.append_inj he.2 hx).1]

theorem packet_nonempty {w : Bytes} (h : packet w ≠ none) : w ≠ [] := by
  obtain ⟨b, r, _, _, rfl, _⟩ := frame_some h
  simp

/-- What is read from the beginning of a stream is the beginning of what the stream is made of. -/
theorem begins_prefix {bs : Bytes} {ws us : List Bytes} (h : Begins bs ws) (hu : ∀ u ∈ us, packet u ≠ none)
    (hb : bs <+: us.flatten) : ws <+: us := by
  obtain ⟨hw, hp⟩ := h
  obtain ⟨t, ht⟩ := hp.trans hb
  clear hp hb
  induction ws generalizing us with
  | nil => exact List.nil_prefix
  | cons w ws ih =>
    cases us with
    | nil =>
      have := packet_nonempty (hw w (by simp))
      simp [this] at ht
    | cons u us =>
      rw [List.flatten_cons, List.flatten_cons, List.append_assoc] at ht
      have := packet_unique (hw w (by simp)) (hu u (by simp)) ht
      subst this
      have ht := List.append_cancel_left ht
      exact List.cons_prefix_cons.2 ⟨rfl, ih (fun x hx => hu x (by simp [hx])) (fun x hx => hw x (by simp [hx])) ht⟩

end Mqtt.Spec5

namespace Mqtt.V5

open Mqtt.Spec Mqtt.Spec5 Mqtt.Props Mqtt.Client5

/-! ## Reading a PUBLISH -/

theorem alias_skip {l l' : List Property} (h : ∀ x ∈ l, x.id ≠ 35) :
    (l ++ l').findSome? aliasIn =
      l'.findSome? aliasIn := by
  induction l with
  | nil => rfl
  | cons x l ih =>
    have hx : aliasIn x = none := by
      unfold aliasIn
      split
      · rw [if_neg (h x (by simp))]
      · rfl
    rw [List.cons_append, List.findSome?_cons, hx]
    exact ih fun y hy => h y (by simp [hy])

theorem alias_filter {l l' : List Property} (h : ∀ x ∈ l, x.id ≠ 35) :
    (l ++ l').filter (fun x => x.id ≠ 35) = l ++ l'.filter (fun x => x.id ≠ 35) := by
  rw [List.filter_append, List.filter_eq_self.2 (by simpa using h)]

theorem optNum_id (i : Nat) (o : Option Nat) (hi : i ≠ 35) : ∀ x ∈ optNum i o, x.id ≠ 35 := by
  cases o <;> simp [optNum, hi]

theorem optText_id (i : Nat) (o : Option Bytes) (hi : i ≠ 35) : ∀ x ∈ optText i o, x.id ≠ 35 := by
  cases o <;> simp [optText, hi]

theorem userProps_id (ps : List UserProperty) : ∀ x ∈ userProps ps, x.id ≠ 35 := by
  intro x hx
  simp only [userProps, List.mem_map] at hx
  obtain ⟨_, _, rfl⟩ := hx
  simp

/-- The alias of a PUBLISH is read as it is. -/
theorem meaning_alias (v : PublishView) : ∃ q, meaning (.publish v) = .publish q ∧ topicAliasOf q = v.topicAlias ∧
    q.topic = v.topic := by
  refine ⟨_, rfl, ?_, rfl⟩
  have h1 : ∀ x ∈ optNum 1 v.payloadFormat ++ optNum 2 v.messageExpiry, x.id ≠ 35 := by
    intro x hx
    rcases List.mem_append.1 hx with hx | hx
    · exact optNum_id 1 _ (by decide) x hx
    · exact optNum_id 2 _ (by decide) x hx
  have h2 : ∀ x ∈ optText 8 v.responseTopic ++ optText 9 v.correlationData ++
        v.subscriptionIdentifiers.map (fun i => (⟨11, .num i⟩ : Property)) ++ optText 3 v.contentType ++
        userProps v.userProperties, x.id ≠ 35 := by
    intro x hx
    simp only [List.mem_append] at hx
    rcases hx with (((hx | hx) | hx) | hx) | hx
    · exact optText_id 8 _ (by decide) x hx
    · exact optText_id 9 _ (by decide) x hx
    · obtain ⟨_, _, rfl⟩ := List.mem_map.1 hx
      simp
    · exact optText_id 3 _ (by decide) x hx
    · exact userProps_id _ x hx
  have hassoc : ∀ a, optNum 1 v.payloadFormat ++ optNum 2 v.messageExpiry ++ optNum 35 a ++ optText 8 v.responseTopic ++
        optText 9 v.correlationData ++ v.subscriptionIdentifiers.map (fun i => (⟨11, .num i⟩ : Property)) ++
        optText 3 v.contentType ++ userProps v.userProperties =
      (optNum 1 v.payloadFormat ++ optNum 2 v.messageExpiry) ++ (optNum 35 a ++ (optText 8 v.responseTopic ++
        optText 9 v.correlationData ++ v.subscriptionIdentifiers.map (fun i => (⟨11, .num i⟩ : Property)) ++
        optText 3 v.contentType ++ userProps v.userProperties)) := by
    intro a; simp only [List.append_assoc]
  simp only [topicAliasOf]
  rw [hassoc, alias_skip h1]
  cases v.topicAlias with
  | none =>
    simp only [optNum, List.nil_append]
    have := alias_skip (l' := []) h2
    rw [List.append_nil] at this
    exact this
  | some n => simp [optNum, aliasIn]

/-- What the resolver makes of an alias. -/
theorem obeys_step {b : TopicAlias.Behavior} {r r' : TopicAlias.Outbound} {s : AliasServer} {t t' : Bytes}
    {a a' : Option Nat} (hi : TopicAlias.AliasInv b r s) (h : TopicAlias.beginPublish r t a = .ok r' t' a') :
    Obeys b a a' := by
  cases hi with
  | disabled =>
    simp only [TopicAlias.beginPublish, TopicAlias.Outbound.resolve] at h
    repeat' split at h
    all_goals simp_all [Obeys]
  | @manual al _ _ _ =>
    have hk : ∀ x n y, TopicAlias.resolveManual al t a = some (x, n, y) → a = if n = 0 then none else some n := by
      intro x n y hx
      unfold TopicAlias.resolveManual at hx
      repeat' split at hx
      all_goals simp_all
    simp only [TopicAlias.beginPublish, TopicAlias.Outbound.resolve] at h
    split at h
    · cases h
    · rename_i hx
      have := hk _ _ _ hx
      repeat' split at h
      all_goals simp_all [Obeys]
  | lruOff _ => trivial
  | lru _ _ _ _ _ _ _ => trivial

/-- A server gives a PUBLISH its topic back. -/
theorem serve_publish {s s' : AliasServer} {w : Bytes} {v : PublishView} {t : Bytes} {a : Option Nat}
    (hw : packet w = some (meaning (.publish { v with topic := t, topicAlias := a })))
    (hr : s.receive t a = some (s', v.topic)) : serve s w = some (s', meaning (.publish { v with topicAlias := none })) := by
  have h1 : ∀ x ∈ optNum 1 v.payloadFormat ++ optNum 2 v.messageExpiry, x.id ≠ 35 := by
    intro x hx
    rcases List.mem_append.1 hx with hx | hx
    · exact optNum_id 1 _ (by decide) x hx
    · exact optNum_id 2 _ (by decide) x hx
  have h2 : ∀ x ∈ optText 8 v.responseTopic ++ optText 9 v.correlationData ++
        v.subscriptionIdentifiers.map (fun i => (⟨11, .num i⟩ : Property)) ++ optText 3 v.contentType ++
        userProps v.userProperties, x.id ≠ 35 := by
    intro x hx
    simp only [List.mem_append] at hx
    rcases hx with (((hx | hx) | hx) | hx) | hx
    · exact optText_id 8 _ (by decide) x hx
    · exact optText_id 9 _ (by decide) x hx
    · obtain ⟨_, _, rfl⟩ := List.mem_map.1 hx
      simp
    · exact optText_id 3 _ (by decide) x hx
    · exact userProps_id _ x hx
  have hassoc : ∀ a, optNum 1 v.payloadFormat ++ optNum 2 v.messageExpiry ++ optNum 35 a ++ optText 8 v.responseTopic ++
        optText 9 v.correlationData ++ v.subscriptionIdentifiers.map (fun i => (⟨11, .num i⟩ : Property)) ++
        optText 3 v.contentType ++ userProps v.userProperties =
      (optNum 1 v.payloadFormat ++ optNum 2 v.messageExpiry) ++ (optNum 35 a ++ (optText 8 v.responseTopic ++
        optText 9 v.correlationData ++ v.subscriptionIdentifiers.map (fun i => (⟨11, .num i⟩ : Property)) ++
        optText 3 v.contentType ++ userProps v.userProperties)) := by
    intro a; simp only [List.append_assoc]
  unfold serve
  rw [hw]
  simp only [meaning, topicAliasOf]
  rw [hassoc a, hassoc none, alias_skip h1, alias_filter h1]
  have h3 : ∀ l : List Property, (∀ x ∈ l, x.id ≠ 35) → l.findSome? aliasIn = (none : Option Nat) := by
    intro l hl
    have := alias_skip (l' := []) hl
    rw [List.append_nil] at this
    exact this
  have h4 := alias_filter (l' := []) h2
  rw [List.append_nil, List.filter_nil, List.append_nil] at h4
  cases a with
  | none =>
    simp only [optNum, List.nil_append]
    rw [h3 _ h2, h4, hr]
    rfl
  | some n =>
    simp only [optNum, List.cons_append, List.nil_append, List.findSome?_cons, aliasIn, if_true]
    rw [hr, List.filter_cons_of_neg (by simp), h4]
    rfl

theorem serve_other {s : AliasServer} {w : Bytes} {p : Outgoing} (hw : packet w = some (meaning p))
    (hp : isPublish p = false) : serve s w = some (s, meaning (unaliased p)) := by
  unfold serve
  rw [hw]
  cases p <;> first | rfl | cases hp

/-! ## What fits -/

/-- What the user submitted fits. -/
theorem user_fits {log : List Effect} {u : Nat} {p : Outgoing} (ho : Origin log u p) (hu : isUser p = true)
    (hr : Representable p) (hq : ∀ v, p = .publish v → (v.packetId ≠ 0 ↔ v.qos ≠ 0)) : Fits p := by
  obtain ⟨q, _, hs, hpq⟩ := ho hu
  have user : ∀ ps : List UserProperty, UserRules ps ∧ ps.length ≤ 1024 → UserFits ps :=
    fun ps h => ⟨h.2, fun x hx => ⟨(h.1 x hx).1.1, (h.1 x hx).2.1⟩⟩
  cases p with
  | publish v =>
    cases q with
    | publish x =>
      obtain ⟨y, hy⟩ := hs
      have := newPublish_same hy
      subst this
      simp only [plainPacket, Outgoing.publish.injEq] at hpq
      have hval : validatePublish y = true := by
        unfold newPublish at hy
        cases hx : validatePublish y with
        | true => rfl
        | false => rw [hx] at hy; cases hy
      obtain ⟨h1, h2, _⟩ := (validatePublish_iff y).1 hval
      have e1 : v.qos = y.qos := (congrArg PublishView.qos hpq).symm
      have e2 : v.topic = y.topic := (congrArg PublishView.topic hpq).symm
      have e3 : v.payloadFormat = y.payloadFormat := (congrArg PublishView.payloadFormat hpq).symm
      have e4 : v.responseTopic = y.responseTopic := (congrArg PublishView.responseTopic hpq).symm
      have e5 : v.correlationData = y.correlationData := (congrArg PublishView.correlationData hpq).symm
      have e6 : v.contentType = y.contentType := (congrArg PublishView.contentType hpq).symm
      have e7 : v.userProperties = y.userProperties := (congrArg PublishView.userProperties hpq).symm
      exact {
        qos := by rw [e1]; exact h1.qos
        packetId := hr.1
        packetIdQos := hq v rfl
        topic := by rw [e2]; exact h1.topic.2.1
        payloadFormat := by
          intro n hn
          rw [e3] at hn
          have := h1.format n hn
          omega
        messageExpiry := hr.2.1
        topicAlias := hr.2.2
        responseTopic := by intro n hn; rw [e4] at hn; exact (h1.response n hn).2.1
        correlationData := by intro n hn; rw [e5] at hn; exact h1.correlation n hn
        contentType := by intro n hn; rw [e6] at hn; exact (h1.contentType n hn).1
        userProperties := by rw [e7]; exact user _ ⟨h1.user, h2.user⟩ }
    | _ => cases hpq
  | subscribe v =>
    cases q with
    | subscribe x =>
      obtain ⟨y, hy⟩ := hs
      unfold newSubscribe at hy
      split at hy
      · cases hy
      · rename_i hval
        split at hy
        · cases hy
        · cases hy
          simp only [plainPacket, withPacketId, Outgoing.subscribe.injEq] at hpq
          obtain ⟨_, _, h3, _, h5, h6⟩ := (validateSubscribe_iff x).1 (by simpa using hval)
          have e1 : v.subscriptions = x.subscriptions := (congrArg SubscribeView.subscriptions hpq).symm
          have e2 : v.userProperties = x.userProperties := (congrArg SubscribeView.userProperties hpq).symm
          exact ⟨hr, by
            rw [e1]
            intro s hs
            obtain ⟨g1, g2, g3, _⟩ := h3 s hs
            exact ⟨g1.2.1, by omega, g3⟩, by rw [e2]; exact user _ ⟨h5, h6⟩⟩
    | _ => cases hpq
  | unsubscribe v =>
    cases q with
    | unsubscribe x =>
      obtain ⟨y, hy⟩ := hs
      unfold newUnsubscribe at hy
      split at hy
      · cases hy
      · rename_i hval
        split at hy
        · cases hy
        · cases hy
          simp only [plainPacket, withPacketId, Outgoing.unsubscribe.injEq] at hpq
          have e1 : v.topicFilters = x.topicFilters := (congrArg UnsubscribeView.topicFilters hpq).symm
          have e2 : v.userProperties = x.userProperties := (congrArg UnsubscribeView.userProperties hpq).symm
          have hval : validateUnsubscribe x = true := by simpa using hval
          unfold validateUnsubscribe at hval
          split at hval
          · cases hval
          · split at hval
            · cases hval
            · split at hval
              · cases hval
              · rename_i hall
                simp only [Bool.not_eq_true', Bool.not_eq_false, List.all_eq_true, Bool.and_eq_true] at hall
                refine ⟨hr, ?_, by rw [e2]; exact user _ ((validateUserProperties_iff _).1 hval)⟩
                rw [e1]
                intro f hf
                exact ((C08_filter f).1 (by simpa using (hall f hf).2)).2.1
    | _ => cases hpq
  | _ => cases hu

/-- The server restores a topic from itself or from nothing. -/
theorem receive_topic {s s' : AliasServer} {t u : Bytes} {a : Option Nat} (h : s.receive t a = some (s', u)) :
    (t = [] ∨ t = u) ∧ s'.max = s.max ∧ ∀ n, a = some n → n ≤ s.max := by
  cases a with
  | none =>
    simp only [AliasServer.receive] at h
    split at h
    · cases h
    · cases h; exact ⟨.inr rfl, rfl, by simp⟩
  | some n =>
    simp only [AliasServer.receive] at h
    split at h
    · cases h
    · rename_i hn
      split at h
      · rename_i ht
        simp only [Option.map_eq_some_iff, Prod.mk.injEq] at h
        obtain ⟨_, _, rfl, _⟩ := h
        exact ⟨.inl ht, rfl, fun m hm => by cases hm; omega⟩
      · cases h
        exact ⟨.inr rfl, rfl, fun m hm => by cases hm; omega⟩

theorem resolved_fits {v : PublishView} {s s' : AliasServer} {t : Bytes} {a : Option Nat} (hf : PublishFits v)
    (hm : s.max < 65536) (h : s.receive t a = some (s', v.topic)) : PublishFits { v with topic := t, topicAlias := a } := by
  obtain ⟨h1, _, h3⟩ := receive_topic h
  exact { hf with
    topic := by
      rcases h1 with h1 | h1
      · simp only [h1]; simp [Short]
      · simp only [h1]; exact hf.topic
    topicAlias := by
      intro n hn
      have := h3 n hn
      omega }

/-- A PUBLISH that differs in packet id, topic and alias from one whose size was computed has a size. -/
theorem publish_known {v v' : PublishView} {steps : List Step} {n : Nat} (hn : encodedSize (.publish v) = some n)
    (hs : publishSteps v' = some steps) (hok : (pushSteps steps).2 = true)
    (hv : v' = { v with packetId := v'.packetId, topic := v'.topic, topicAlias := v'.topicAlias })
    (ht : v'.topic.length ≤ 65535) : encodedSize (.publish v') ≠ none := by
  simp only [encodedSize] at hn ⊢
  cases hl : publishLengths v with
  | none => rw [hl] at hn; cases hn
  | some l =>
  rw [hl] at hn
  simp only [Option.bind_some] at hn
  obtain ⟨ids, k, h1, h2, h3⟩ := publishLengths_parts hl
  cases hl' : publishLengths v' with
  | none => rw [publishSteps, hl'] at hs; cases hs
  | some l' =>
  obtain ⟨ids', k', h1', h2', h3'⟩ := publishLengths_parts hl'
  have hids : ids' = ids := by
    rw [hv] at h1'
    rw [h1] at h1'
    exact (Option.some.inj h1').symm
  subst hids
  have e1 : v'.userProperties = v.userProperties := by rw [hv]
  have e2 : v'.payloadFormat = v.payloadFormat := by rw [hv]
  have e3 : v'.messageExpiry = v.messageExpiry := by rw [hv]
  have e4 : v'.responseTopic = v.responseTopic := by rw [hv]
  have e5 : v'.correlationData = v.correlationData := by rw [hv]
  have e6 : v'.contentType = v.contentType := by rw [hv]
  have e7 : v'.payload = v.payload := by rw [hv]
  rw [e1, e2, e3, e4, e5, e6] at h2' h3'
  rw [e7] at h3'
  clear hv
  obtain ⟨hmax, _⟩ := packetSize_exact hn
  have hk : k' ≤ 4 := by rw [(vliSize_some h2').2]; exact vliBytes_length_le _ (vliSize_some h2').1
  have ha : optU16Len v'.topicAlias ≤ 3 := by unfold optU16Len; split <;> omega
  have hmax' : l'.1 ≤ maxVli := by
    have hlt : l'.1 < 4294967296 := by
      have : maxVli = 268435455 := rfl
      split at h3' <;> omega
    have hs' := hs
    simp only [publishSteps, hl', Option.bind_eq_bind, Option.bind_some, Option.some.injEq] at hs'
    have := (pushSteps_true hok).2 (.vli (u32 l'.1)) (by rw [← hs']; simp)
    simp only [Step.Ok, u32, Nat.mod_eq_of_lt hlt] at this
    exact this
  simp only [Option.bind_some, packetSize]
  rw [vliSize_eq _ hmax']
  simp

end Mqtt.V5
