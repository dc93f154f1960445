import Verif.Lemmas.Client5Order
import Verif.Lemmas.Client5Faults
import Verif.Lemmas.Packets5

/-!
The size of what the MQTT 5 client sends, compared with the size it checked.
-/
namespace Mqtt.V5

/-! ## Sizes of packets -/

theorem vliSize_mono {x y a b : Nat} (h : x ≤ y) (ha : vliSize x = some a) (hb : vliSize y = some b) : a ≤ b := by
  unfold vliSize at ha hb
  (repeat' split at ha) <;> (repeat' split at hb) <;> first | cases ha; done | cases hb; done | (cases ha; cases hb; omega)

theorem vliSize_grow {x y a b : Nat} (h : y ≤ x + 7) (ha : vliSize x = some a) (hb : vliSize y = some b) : b ≤ a + 1 := by
  unfold vliSize at ha hb
  (repeat' split at ha) <;> (repeat' split at hb) <;> first | cases ha; done | cases hb; done | (cases ha; cases hb; omega)

theorem packetSize_exact {t n : Nat} (h : packetSize t = some n) : t ≤ maxVli ∧ n = 1 + (vliBytes t).length + t := by
  unfold packetSize at h
  cases hk : vliSize t with
  | none => simp [hk] at h
  | some k =>
    obtain ⟨h1, h2⟩ := vliSize_some hk
    simp [hk] at h
    exact ⟨h1, by omega⟩

theorem framed_length {b1 : UInt8} {body bytes : Bytes} {t n : Nat} (h : Framed b1 body bytes) (hl : body.length = t)
    (hn : packetSize t = some n) : bytes.length = n := by
  obtain ⟨h1, h2⟩ := packetSize_exact hn
  rw [h, hl, u32_of_le h1]
  simp
  omega

/-- What is written has the computed size. -/
theorem size_exact {p : Outgoing} {steps : List Step} {n : Nat} (hn : encodedSize p = some n)
    (hs : packetSteps p = some steps) (hok : (pushSteps steps).2 = true)
    (hq : ∀ v, p = .publish v → (v.packetId ≠ 0 ↔ v.qos ≠ 0)) : (stepsBytes steps).length = n := by
  cases p with
  | connect v => cases hn
  | publish v =>
    simp only [encodedSize, packetSteps] at hn hs
    cases hl : publishLengths v with
    | none => rw [hl] at hn; cases hn
    | some l =>
      rw [hl] at hn
      obtain ⟨st, h1, h2, h3, _⟩ := publish_bytes hl (hq v rfl)
      rw [hs] at h1; cases h1
      exact framed_length h2 h3 hn
  | puback v =>
    simp only [encodedSize, packetSteps] at hn hs
    cases hl : pubackLengths v with
    | none => rw [hl] at hn; cases hn
    | some l =>
      rw [hl] at hn
      obtain ⟨st, h1, h2, h3, _⟩ := puback_bytes hl
      rw [hs] at h1; cases h1
      exact framed_length h2 h3 hn
  | subscribe v =>
    simp only [encodedSize, packetSteps] at hn hs
    cases hl : subscribeLengths v with
    | none => rw [hl] at hn; cases hn
    | some l =>
      rw [hl] at hn
      have hid : ∀ i, v.subscriptionIdentifier = some i → i ≤ maxVli := by
        intro i hi
        obtain ⟨_, hall⟩ := pushSteps_true hok
        have hs' := hs
        simp only [subscribeSteps, hl, Option.bind_eq_bind, Option.bind_some, Option.some.injEq] at hs'
        exact hall (.vli i) (by rw [← hs']; simp [hi, subIdSteps])
      obtain ⟨st, h1, h2, h3, _⟩ := subscribe_bytes hl hid
      rw [hs] at h1; cases h1
      exact framed_length h2 h3 hn
  | unsubscribe v =>
    simp only [encodedSize, packetSteps] at hn hs
    cases hl : unsubscribeLengths v with
    | none => rw [hl] at hn; cases hn
    | some l =>
      rw [hl] at hn
      obtain ⟨st, h1, h2, h3, _⟩ := unsubscribe_bytes hl
      rw [hs] at h1; cases h1
      exact framed_length h2 h3 hn
  | pingreq =>
    simp only [encodedSize, packetSteps, Option.some.injEq] at hn hs
    subst hs hn
    rfl
  | disconnect v =>
    simp only [encodedSize, packetSteps] at hn hs
    cases hl : disconnectLengths v with
    | none => rw [hl] at hn; cases hn
    | some l =>
      rw [hl] at hn
      obtain ⟨st, h1, h2, h3, _⟩ := disconnect_bytes hl
      rw [hs] at h1; cases h1
      exact framed_length h2 h3 hn

/-- How much a PUBLISH grows when it gets a packet id (`i` is 2 then) or a topic alias (`a` is 3 then). -/
def growth (i a : Nat) : Nat := i + a + (if a = 0 then 0 else 1) + (if i + a = 0 then 0 else 1)

/-- The parts of the length of a PUBLISH. -/
theorem publishLengths_parts {v : PublishView} {l : Nat × Nat} (h : publishLengths v = some l) :
    ∃ ids k, subscriptionIdsLen v.subscriptionIdentifiers = some ids ∧
      vliSize (userPropertiesLen v.userProperties + optU8Len v.payloadFormat + optU32Len v.messageExpiry +
        optU16Len v.topicAlias + optCursorLen v.responseTopic + optCursorLen v.correlationData +
        optCursorLen v.contentType + ids) = some k ∧
      l.1 = k + (2 + v.topic.length) + (if v.packetId ≠ 0 then 2 else 0) +
        (userPropertiesLen v.userProperties + optU8Len v.payloadFormat + optU32Len v.messageExpiry +
        optU16Len v.topicAlias + optCursorLen v.responseTopic + optCursorLen v.correlationData +
        optCursorLen v.contentType + ids) + v.payload.length := by
  unfold publishLengths at h
  cases hi : subscriptionIdsLen v.subscriptionIdentifiers with
  | none => rw [hi] at h; cases h
  | some ids =>
    rw [hi] at h
    simp only [Option.bind_eq_bind, Option.bind_some] at h
    cases hk : vliSize (userPropertiesLen v.userProperties + optU8Len v.payloadFormat + optU32Len v.messageExpiry +
        optU16Len v.topicAlias + optCursorLen v.responseTopic + optCursorLen v.correlationData +
        optCursorLen v.contentType + ids) with
    | none => rw [hk] at h; cases h
    | some k =>
      rw [hk] at h
      refine ⟨ids, k, rfl, hk, ?_⟩
      have := Option.some.inj h
      rw [← this]

theorem growth_arith {k k' r r' x x' tp tp' pl i a t t' b b' : Nat} (hk : k' ≤ k + (if a = 0 then 0 else 1)) (hx : x' ≤ x + i)
    (hr : r' ≤ r + a) (ht : t = k + (2 + tp) + x + r + pl) (ht' : t' = k' + (2 + tp') + x' + r' + pl) (htp : tp' ≤ tp)
    (hi : i ≤ 2) (ha : a ≤ 3) (hb : vliSize t = some b) (hb' : vliSize t' = some b') :
    1 + b' + t' ≤ 1 + b + t + growth i a := by
  unfold growth
  by_cases h0 : i + a = 0
  · rw [if_pos (show a = 0 by omega)] at hk ⊢
    rw [if_pos h0]
    have := vliSize_mono (show t' ≤ t by omega) hb' hb
    omega
  · rw [if_neg h0]
    have := vliSize_grow (show t' ≤ t + 7 by split at hk <;> omega) hb hb'
    split <;> rename_i ha0 <;> simp only [ha0, if_true, if_false] at hk <;> omega

/-- A PUBLISH that differs in packet id, topic and alias from one whose size was computed. -/
theorem publish_growth {v v' : PublishView} {steps : List Step} {n i a : Nat} (hn : encodedSize (.publish v) = some n)
    (hs : publishSteps v' = some steps) (hok : (pushSteps steps).2 = true) (hq : v'.packetId ≠ 0 ↔ v'.qos ≠ 0)
    (hv : v' = { v with packetId := v'.packetId, topic := v'.topic, topicAlias := v'.topicAlias })
    (ht : v'.topic.length ≤ v.topic.length) (hi : i ≤ 2) (ha : a ≤ 3)
    (hid : (if v'.packetId ≠ 0 then 2 else 0) ≤ (if v.packetId ≠ 0 then 2 else 0) + i)
    (hal : optU16Len v'.topicAlias ≤ optU16Len v.topicAlias + a) : (stepsBytes steps).length ≤ n + growth i a := by
  simp only [encodedSize] at hn
  cases hl : publishLengths v with
  | none => rw [hl] at hn; cases hn
  | some l =>
  rw [hl] at hn
  simp only [Option.bind_some] at hn
  obtain ⟨ids, k, h1, h2, h3⟩ := publishLengths_parts hl
  cases hl' : publishLengths v' with
  | none => rw [publishSteps, hl'] at hs; cases hs
  | some l' =>
  obtain ⟨ids', k', h1', h2', h3'⟩ := publishLengths_parts hl'
  have hids : ids' = ids := by
    rw [hv] at h1'
    rw [h1] at h1'
    exact (Option.some.inj h1').symm
  subst hids
  have e1 : v'.userProperties = v.userProperties := by rw [hv]
  have e2 : v'.payloadFormat = v.payloadFormat := by rw [hv]
  have e3 : v'.messageExpiry = v.messageExpiry := by rw [hv]
  have e4 : v'.responseTopic = v.responseTopic := by rw [hv]
  have e5 : v'.correlationData = v.correlationData := by rw [hv]
  have e6 : v'.contentType = v.contentType := by rw [hv]
  have e7 : v'.payload = v.payload := by rw [hv]
  rw [e1, e2, e3, e4, e5, e6] at h2' h3'
  rw [e7] at h3'
  clear hv
  have hk : k' ≤ k + (if a = 0 then 0 else 1) := by
    split
    · exact vliSize_mono (by omega) h2' h2
    · exact vliSize_grow (by omega) h2 h2'
  obtain ⟨st, g1, g2, g3, _⟩ := publish_bytes hl' hq
  rw [hs] at g1
  cases g1
  obtain ⟨hmax, hsz⟩ := packetSize_exact hn
  have hb : vliSize l.1 = some (vliBytes l.1).length := vliSize_eq _ hmax
  have hmax' : l'.1 ≤ maxVli := by
    have hlt : l'.1 < 4294967296 := by split at hk <;> omega
    have hs' := hs
    simp only [publishSteps, hl', Option.bind_eq_bind, Option.bind_some, Option.some.injEq] at hs'
    have := (pushSteps_true hok).2 (.vli (u32 l'.1)) (by rw [← hs']; simp)
    simp only [Step.Ok, u32, Nat.mod_eq_of_lt hlt] at this
    exact this
  have hb' : vliSize l'.1 = some (vliBytes l'.1).length := vliSize_eq _ hmax'
  have := growth_arith (pl := v.payload.length) hk hid (show _ ≤ _ + a by omega) h3 h3' ht hi ha hb hb'
  rw [g2, g3, u32_of_le hmax']
  simp only [List.length_cons, List.length_append, g3]
  omega

/-- A packet was appended. -/
theorem push_ok {e e' : Encoder} {steps : Option (List Step)} (h : e.push steps = .ok e') :
    ∃ st, steps = some st ∧ (pushSteps st).2 = true ∧ e'.steps = e.steps ++ st := by
  unfold Encoder.push at h
  split at h
  · cases h
  · rename_i st
    simp only at h
    split at h
    · rename_i hok
      cases h
      exact ⟨st, rfl, hok, by rw [(pushSteps_true hok).1]⟩
    · cases h

end Mqtt.V5

namespace Mqtt.Client5

open Mqtt.V5

/-! ## The settings in force -/

/-- The settings of the connection that is up. -/
def inForce (log : List Effect) : Option Settings :=
  log.foldl (fun s e => match e with
    | .connected x => some x
    | .disconnected => none
    | _ => s) none

theorem inForce_append {log new : List Effect} (h : ∀ e ∈ new, e.phase = false) : inForce (log ++ new) = inForce log := by
  unfold inForce
  rw [List.foldl_append]
  generalize List.foldl _ none log = b
  induction new generalizing b with
  | nil => rfl
  | cons e new ih =>
    have he := h e (by simp)
    rw [List.foldl_cons, ih fun x hx => h x (by simp [hx])]
    cases e <;> simp_all [Effect.phase]

theorem inForce_connected (log : List Effect) (s : Settings) : inForce (log ++ [.connected s]) = some s := by
  simp [inForce]

theorem inForce_live (log : List Effect) : (inForce log).isSome = live log := by
  unfold inForce live
  have : ∀ (o : Option Settings) (b : Bool), o.isSome = b →
      (log.foldl (fun s e => match e with
        | .connected x => some x
        | .disconnected => none
        | _ => s) o).isSome = log.foldl (fun b e => match e with
          | .connected _ => true
          | .disconnected => false
          | _ => b) b := by
    induction log with
    | nil => exact fun o b h => h
    | cons e log ih =>
      intro o b h
      rw [List.foldl_cons, List.foldl_cons]
      refine ih _ _ ?_
      cases e <;> first | exact h | rfl
  exact this none false rfl

/-- The client works with the settings of the connection. -/
def SettingsInv (c : Client) : Prop :=
  (c.ctl.state = .connected ∨ c.ctl.state = .cleanDisconnect) → ∀ s, inForce c.ops.log = some s → c.ctl.settings = s

theorem SettingsInv.same {c : Client} (hv : LiveInv c) (h : SettingsInv c) {s : OpState} {k : Control} {new : List Effect}
    (hk : Ctl c.ctl k) (hl : s.log = c.ops.log ++ new) (h1 : ∀ e ∈ new, e.phase = false) : SettingsInv ⟨s, k⟩ := by
  intro hs x hx
  simp only at hs hx ⊢
  rw [hl, inForce_append h1] at hx
  rcases hs with hs | hs
  · rw [(hk.up hs).2]; exact h (.inl (hk.up hs).1) x hx
  · rw [(hk.clean hs).2]
    refine h ?_ x hx
    have := (hk.clean hs).1
    cases hst : c.ctl.state <;> simp [hst, State.open] at this <;> simp
    have hd := hv.down (.inr hst)
    rw [← inForce_live, hx] at hd
    cases hd

theorem SettingsInv.off {c : Client} (h : live c.ops.log = false) : SettingsInv c := by
  intro _ x hx
  rw [← inForce_live, hx] at h
  cases h

theorem settings_move {cfg : Config} {c c' : Client} (hi : LiveInv c) (h : SettingsInv c) (m : Move cfg c c') :
    SettingsInv c' := by
  have hr := Ctl.refl c.ctl
  cases m with
  | control k hk => exact h.same hi hk.ctl (List.append_nil _).symm (by simp)
  | accept p t hp hs hst => exact h.same hi hr rfl (by simp [Effect.phase])
  | reject p e hp => exact h.same hi hr rfl (by simp [Effect.phase])
  | push p hp hst => exact h.same hi hr (List.append_nil _).symm (by simp)
  | publish v a hst =>
    obtain ⟨s1, ctl, hs, hl, hx⟩ := onPublish_queue c.ops v a
    rcases hx with hx | hx
    · rw [hx]; exact h.same hi hr hl (by simp [Effect.phase])
    · rw [hx]
      exact h.same hi hr (new := [.delivered v ctl, .pubackQueued s1.nextUid v.packetId]) (by simp [OpState.queuePuback, hl])
        (by simp [Effect.phase])
  | invoke ctl hst =>
    rcases invoke_queue c.ops ctl with ⟨id, s1, _, hs, hl, _, _, _, hx⟩ | ⟨_, hs, hl, _⟩
    · rw [hx]
      exact h.same hi hr (new := [.invoked ctl (some id), .pubackQueued s1.nextUid id]) (by simp [OpState.queuePuback, hl])
        (by simp [Effect.phase])
    · exact h.same hi hr hl (by simp [Effect.phase])
  | token id hst => exact h.same hi hr rfl (by simp [Effect.phase])
  | invalid op rest e hq he => exact h.same hi hr rfl (by simp [Effect.phase])
  | start op rest s ok hq hc he hst hs =>
    rcases setCurrent_cases hs with ⟨_, p, n, enc, rfl, _⟩ | ⟨_, op', n, enc, rfl, hb, _⟩
    · exact h.same hi hr rfl (by simp [Effect.phase])
    · exact h.same hi hr rfl (by simp [Effect.phase])
  | encode op buf buf' enc r hc he => exact h.same hi hr (List.append_nil _).symm (by simp)
  | finish op now s hc hsteps hs =>
    obtain ⟨_, hcase⟩ := finish_cases hs
    have hlog : s.log = c.ops.log ++ [.encoded op.uid op.packet] := by
      rcases hcase with ⟨_, _, rfl⟩ | ⟨_, rfl⟩ <;> rfl
    exact h.same hi hr hlog (by simp [Effect.phase])
  | write data => exact h.same hi hr rfl (by simp [Effect.phase])
  | pinged uid => exact h.same hi hr rfl (by simp [Effect.phase])
  | unwrite => exact h.same hi hr (List.append_nil _).symm (by simp)
  | written e =>
    rw [completeAll_eq]
    exact h.same hi hr rfl (completions_phase _ _)
  | ack id uid op rest e a ht hu => exact h.same hi hr rfl (by simp [Effect.phase])
  | timeout op rest hu ht => exact h.same hi hr rfl (by simp [Effect.phase])
  | forget uid => exact h.same hi hr (List.append_nil _).symm (by simp)
  | fresh hst => exact h.same hi hr (List.append_nil _).symm (by simp)
  | disconnection e st hst =>
    exact .off (by rw [onDisconnection_log, ← List.append_assoc]; exact live_disconnected _)
  | connection settings now hst =>
    have hctl := toConnected_ctl cfg { c with ctl := { c.ctl with settings := settings } } now
    have hlog : (({ c with ctl := { c.ctl with settings := settings } } : Client).toConnected cfg now).ops.log = (c.ops.log ++
        completions (lostOnConnection cfg settings c.ops) .offlinePolicy) ++ [.connected settings] := by
      simp [Client.toConnected]
    intro _ x hx
    rw [hlog, inForce_connected] at hx
    rw [hctl.1]
    exact Option.some.inj hx
  | reset hst =>
    have hd := hi.down (.inl (by rcases hst with hst | hst <;> simp [hst, State.quiet]))
    refine .off ?_
    simp only [Client.toStopped, resetAll_log]
    rw [live_append (completions_phase _ _)]; exact hd
  | terminate hst hd =>
    have hd := hi.down (.inl (by simp [hst, State.quiet]))
    refine .off ?_
    simp only [Client.toTerminated, resetAll_log]
    rw [live_append (completions_phase _ _)]; exact hd

/-! ## Packets without packet id -/

/-- Only packets that are acknowledged get packet ids. -/
def BareInv (c : Client) : Prop := ∀ op ∈ c.ops.held, requiresAck op.packet = false → packetId op.packet = 0

theorem bare_move {cfg : Config} {c c' : Client} (hh : HeldInv c) (hb : BareInv c) (m : Move cfg c c') : BareInv c' := by
  intro op ho hr
  rcases move_from m with ⟨_, h1⟩ | ⟨op0, rest, s, ok, h1, h2, h3, h4⟩
  · rcases h1 op ho with h1 | ⟨o, h2, h3, h4⟩
    · exact h1
    · rcases move_born m op ho with ⟨o', h5, h6, h7⟩ | ⟨h5, _⟩
      · have := hh.same h2 h5 (h3.trans h6.symm)
        subst this
        rw [← h4]
        refine hb o h2 ?_
        rw [← plain_requiresAck, h7, plain_requiresAck]
        exact hr
      · have := hh.once o.uid
        unfold places born at this
        rw [if_neg (by omega)] at this
        have h6 : o.uid ∈ c.ops.held.map (·.uid) := List.mem_map.2 ⟨o, h2, rfl⟩
        have := List.count_pos_iff.2 h6
        omega
  · subst h4
    have hmem : ∀ o ∈ rest ++ (c.ops.writing ++ c.ops.unacked), o ∈ c.ops.held := by
      intro o ho
      simp only [List.mem_append] at ho
      simp only [OpState.held, h1, List.mem_append, List.mem_cons]
      rcases ho with ho | ho | ho
      · exact .inl (.inr ho)
      · exact .inr (.inr (.inl ho))
      · exact .inr (.inr (.inr ho))
    rcases setCurrent_cases h2 with ⟨_, p, n, enc, rfl, _⟩ | ⟨_, op', n, enc, rfl, hbind, _⟩
    · simp only [OpState.held, h3, Option.toList_none, List.nil_append] at ho
      exact hb op (hmem op ho) hr
    · simp only [OpState.held, Option.toList_some, List.mem_append, List.mem_singleton] at ho
      have h5 : op ∈ rest ++ (c.ops.writing ++ c.ops.unacked) ∨ op = op' := by
        simp only [List.mem_append]
        rcases ho with ho | ho | ho
        · exact .inl (.inl ho)
        · exact .inr ho
        · exact .inl (.inr ho)
      rcases h5 with h5 | h5
      · exact hb op (hmem op h5) hr
      · subst h5
        rcases bind_cases hbind with ⟨_, _, rfl⟩ | ⟨h6, id, _, _, rfl⟩
        · exact hb op (by simp [OpState.held, h1]) hr
        · simp only [needsId, Bool.and_eq_true] at h6
          have : requiresAck (withPacketId op0.packet id) = requiresAck op0.packet := by cases op0.packet <;> rfl
          rw [this, h6.1] at hr
          cases hr

/-! ## What is started -/

/-- What the alias resolver does to topic and alias. -/
theorem beginPublish_length {r r' : TopicAlias.Outbound} {t t' : Bytes} {al al' : Option Nat}
    (h : TopicAlias.beginPublish r t al = .ok r' t' al') : t'.length ≤ t.length ∧ optU16Len al' ≤ optU16Len al + 3 ∧
      ((∀ c m, r ≠ .lru c m) → optU16Len al' ≤ optU16Len al) := by
  have h3 : ∀ o, optU16Len o ≤ 3 := fun o => by unfold optU16Len; split <;> omega
  unfold TopicAlias.beginPublish at h
  split at h
  · cases h
  · rename_i r1 a t1 hr
    have key : t1.length ≤ t.length ∧ (a ≠ 0 → (∀ c m, r ≠ .lru c m) → optU16Len al = 3) := by
      unfold TopicAlias.Outbound.resolve at hr
      split at hr
      · split at hr
        · cases hr
        · cases hr; exact ⟨Nat.le_refl _, fun h => absurd rfl h⟩
      · unfold TopicAlias.resolveManual at hr
        split at hr
        · cases hr; exact ⟨Nat.le_refl _, fun h => absurd rfl h⟩
        · split at hr
          · cases hr
          · split at hr
            · cases hr
            · split at hr
              · cases hr; exact ⟨by simp, fun _ _ => rfl⟩
              · cases hr; exact ⟨Nat.le_refl _, fun _ _ => rfl⟩
      · refine ⟨?_, fun _ h => absurd rfl (h _ _)⟩
        split at hr
        · cases hr; exact Nat.le_refl _
        · split at hr
          · cases hr; exact Nat.le_refl _
          · unfold TopicAlias.resolveLru at hr
            split at hr
            · cases hr; simp
            · split at hr
              · split at hr
                · cases hr
                · cases hr; exact Nat.le_refl _
              · cases hr; exact Nat.le_refl _
    split at h
    · rename_i ha
      cases h
      exact ⟨key.1, by have := h3 (some a); omega, fun hx => by rw [key.2 ha hx]; exact h3 _⟩
    · split at h
      · cases h
        exact ⟨key.1, by simp [optU16Len], fun _ => by simp [optU16Len]⟩
      · cases h

/-- The size of what is started, compared with the maximum. `i` and `j` are 2 and 3, or 0 if there is no need for a packet
id or no automatic topic alias. -/
def Sized (cfg : Config) (a : List Effect) (x : Effect) : Prop :=
  ∀ u p wire s, x = .started u p wire → inForce a = some s → ∀ i j,
    (i = 2 ∨ i = 0 ∧ (isQos1 p = false ∨ ∃ q, .encoded u q ∈ a ∧ isQos1 q = true)) →
    (j = 3 ∨ j = 0 ∧ cfg.outboundAliases ≠ .lru) →
    wire.length ≤ s.maximumPacketSizeToServer + (if isPublish p then growth i j else 0)

theorem invalid_none {cfg : Config} {c : Client} {p : Outgoing} (h : c.invalid cfg p = none)
    (hs : c.ctl.state = .connected ∨ c.ctl.state = .cleanDisconnect) :
    ∃ n, encodedSize p = some n ∧ n ≤ c.ctl.settings.maximumPacketSizeToServer := by
  have hv : c.ctl.settingsValid = true := by
    rcases hs with hs | hs <;> simp [Control.settingsValid, hs]
  unfold Client.invalid at h
  cases hn : encodedSize p with
  | none => rw [hn, hv] at h; simp at h
  | some n =>
    refine ⟨n, rfl, ?_⟩
    rw [hn, hv] at h
    by_cases hle : n ≤ c.ctl.settings.maximumPacketSizeToServer
    · exact hle
    · simp only [Bool.true_and, gt_iff_lt] at h
      rw [if_pos (by simpa using hle)] at h
      cases h

theorem encodedSize_withPacketId {p : Outgoing} (h : isPublish p = false) (id : Nat) :
    encodedSize (withPacketId p id) = encodedSize p := by
  cases p <;> first | rfl | cases h

theorem start_size {cfg : Config} {c : Client} {op op' : Op} {rest : List Op} {n : Nat} {enc : Encoder} {st : Settings}
    (hsafe : SafeInv cfg c) (hset : SettingsInv c) (hbare : BareInv c) (hline : LineInv c.ops) (hkind : KindInv c)
    (hq : c.ops.queued = op :: rest) (he : c.invalid cfg op.packet = none)
    (hst : c.ctl.state = .connected ∨ c.ctl.state = .cleanDisconnect)
    (hb : ({ c.ops with queued := rest } : OpState).bind op = some ({ c.ops with queued := rest, nextId := n }, op'))
    (ha : c.ops.encoder.append op'.packet = .ok enc) (hf : inForce c.ops.log = some st) (i j : Nat)
    (hi : i = 2 ∨ i = 0 ∧ (isQos1 op'.packet = false ∨ ∃ q, .encoded op'.uid q ∈ c.ops.log ∧ isQos1 q = true))
    (hj : j = 3 ∨ j = 0 ∧ cfg.outboundAliases ≠ .lru) :
    ((stepsBytes enc.steps).drop (stepsBytes c.ops.encoder.steps).length).length ≤
      st.maximumPacketSizeToServer + (if isPublish op'.packet then growth i j else 0) := by
  obtain ⟨sz, hsz, hle⟩ := invalid_none he hst
  rw [hset hst st hf] at hle
  have hdrop : ∀ {e e' : Encoder} {steps}, e'.steps = e.steps ++ steps →
      (stepsBytes e'.steps).drop (stepsBytes e.steps).length = stepsBytes steps := by
    intro e e' steps h
    rw [h, stepsBytes_append, List.drop_left]
  have hheld : op ∈ c.ops.held := by simp [OpState.held, hq]
  cases hp : isPublish op'.packet with
  | false =>
    have hp0 : isPublish op.packet = false := by
      rcases bind_cases hb with ⟨_, _, rfl⟩ | ⟨_, id, _, _, rfl⟩
      · exact hp
      · revert hp; simp only; cases op.packet <;> exact fun h => h
    have hsz' : encodedSize op'.packet = some sz := by
      rcases bind_cases hb with ⟨_, _, rfl⟩ | ⟨_, id, _, _, rfl⟩
      · exact hsz
      · simp only [encodedSize_withPacketId hp0, hsz]
    have ha' : c.ops.encoder.push (packetSteps op'.packet) = .ok enc := by
      revert hp ha
      generalize op'.packet = p
      intro ha hp
      cases p <;> first | exact ha | cases hp
    obtain ⟨steps, h1, h2, h3⟩ := push_ok ha'
    rw [hdrop h3, size_exact hsz' h1 h2 (by intro v hv; rw [hv] at hp; cases hp)]
    simp only [Bool.false_eq_true, if_false]
    omega
  | true =>
    rw [if_pos rfl]
    cases hv' : op'.packet with
    | publish v' =>
      have hv : ∃ v, op.packet = .publish v ∧ v' = { v with packetId := v'.packetId } ∧
          (v.packetId ≠ 0 → v'.packetId = v.packetId) ∧ (v.qos = 0 → v'.packetId = v.packetId) := by
        rcases bind_cases hb with ⟨hn, _, rfl⟩ | ⟨hn, id, _, _, rfl⟩
        · exact ⟨v', hv', rfl, fun _ => rfl, fun _ => rfl⟩
        · simp only at hv'
          cases hpk : op.packet with
          | publish v =>
            rw [hpk] at hv' hn
            cases hv'
            simp only [needsId, requiresAck, packetId, Bool.and_eq_true, bne_iff_ne, ne_eq, beq_iff_eq] at hn
            exact ⟨v, rfl, rfl, fun h => absurd hn.2 h, fun h => absurd h hn.1⟩
          | _ => rw [hpk] at hv'; cases hv'
      obtain ⟨v, hv, hvv, hkeep, hkeep0⟩ := hv
      rw [hv] at hsz
      have hqos : v'.qos = v.qos := by rw [hvv]
      have hqq : v'.packetId ≠ 0 ↔ v'.qos ≠ 0 := by
        by_cases h0 : v.qos = 0
        · have := hbare op hheld (by rw [hv]; simp [requiresAck, h0])
          rw [hv] at this
          have h2 := hkeep0 h0
          simp only [packetId] at this
          rw [hqos, h2, this, h0]
        · rw [hqos]
          refine ⟨fun _ => h0, fun _ => ?_⟩
          rcases bind_cases hb with ⟨hn, _, rfl⟩ | ⟨hn, id, hid, _, rfl⟩
          · rw [hv'] at hn
            simp only [needsId, requiresAck, packetId] at hn
            intro hz
            rw [hz, hqos] at hn
            simp [h0] at hn
          · simp only [hv, withPacketId, Outgoing.publish.injEq] at hv'
            rw [← hv']
            have := (findId_range hsafe.inv.live.next hid).1
            simp only
            omega
      have hi2 : i ≤ 2 := by omega
      have hj3 : j ≤ 3 := by omega
      have hid : (if v'.packetId ≠ 0 then 2 else 0) ≤ (if v.packetId ≠ 0 then 2 else 0) + i := by
        rcases hi with rfl | ⟨rfl, hi⟩
        · split <;> omega
        · have hsame : v'.packetId = v.packetId := by
            rcases hi with hi | ⟨q, h1, h2⟩
            · rw [hv'] at hi
              simp only [isQos1, bne_eq_false_iff_eq] at hi
              exact hkeep0 (by omega)
            · refine hkeep ?_
              have hu := bind_uid hb
              have hk := (hline.content (op.uid, op.packet) (by
                refine List.mem_append_right _ (mem_qos1s.2 ⟨?_, op, by simp [hq], rfl, rfl⟩)
                exact hkind op hheld q (hu ▸ h1) h2) q (hu ▸ h1) h2)
              have h4 := congrArg packetId hk.1
              rw [packetId_withoutDup, packetId_withoutDup, hv] at h4
              simp only [packetId] at h4
              rw [h4]
              exact hk.2
          rw [hsame]
          omega
      rw [hv'] at ha
      simp only [Encoder.append] at ha
      have hfin : ∀ {e : Encoder} {w : PublishView}, e.steps = c.ops.encoder.steps → e.push (publishSteps w) = .ok enc →
          w = { v' with topic := w.topic, topicAlias := w.topicAlias } → w.topic.length ≤ v'.topic.length →
          optU16Len w.topicAlias ≤ optU16Len v'.topicAlias + j →
          ((stepsBytes enc.steps).drop (stepsBytes c.ops.encoder.steps).length).length ≤
            st.maximumPacketSizeToServer + growth i j := by
        intro e w he0 hpush hw ht hal
        obtain ⟨steps, h1, h2, h3⟩ := push_ok hpush
        rw [he0] at h3
        rw [hdrop h3]
        have e1 : w.packetId = v'.packetId := by rw [hw]
        have e2 : w.qos = v'.qos := by rw [hw]
        have e3 : v'.topic = v.topic := by rw [hvv]
        have e4 : v'.topicAlias = v.topicAlias := by rw [hvv]
        have := publish_growth (v' := w) (i := i) (a := j) hsz h1 h2 (by rw [e1, e2]; exact hqq)
          (by rw [e1]; rw [hvv] at hw; exact hw) (by rw [← e3]; exact ht) hi2 hj3 (by rw [e1]; exact hid)
          (by rw [← e4]; exact hal)
        omega
      cases hres : c.ops.encoder.resolver with
      | none =>
        rw [hres] at ha
        exact hfin rfl ha rfl (Nat.le_refl _) (by omega)
      | some r =>
        rw [hres] at ha
        simp only at ha
        split at ha
        · cases ha
        · cases ha
        · rename_i r' t' al' hbeg
          obtain ⟨h1, h2, h3⟩ := beginPublish_length hbeg
          refine hfin (e := { c.ops.encoder with resolver := some r' }) rfl ha rfl h1 ?_
          rcases hj with rfl | ⟨rfl, hj⟩
          · exact h2
          · refine h3 ?_
            intro x m hx
            obtain ⟨s, hs⟩ := hsafe.alias.agrees r hres
            subst hx
            cases hb : cfg.outboundAliases with
            | lru => exact hj hb
            | manual => rw [hb] at hs; cases hs
            | disabled => rw [hb] at hs; cases hs
    | _ => rw [hv'] at hp; cases hp

theorem sized_none {cfg : Config} {log new : List Effect} (h : Each (Sized cfg) log)
    (hn : ∀ e ∈ new, ∀ u p w, e ≠ .started u p w) : Each (Sized cfg) (log ++ new) :=
  h.append fun a x b hab u p w s hx => absurd hx (hn x (by rw [hab]; simp) u p w)

theorem completions_started (ops : List Op) (e : Error) : ∀ x ∈ completions ops e, ∀ u p w, x ≠ .started u p w := by
  intro x hx u p w
  simp only [completions, List.mem_map] at hx
  obtain ⟨_, _, rfl⟩ := hx
  simp

/-- What a move adds to the log as far as started operations are concerned. -/
def SetsUp (cfg : Config) (c c' : Client) : Prop :=
  ∃ new, c'.ops.log = c.ops.log ++ new ∧ ((∀ e ∈ new, ∀ u p w, e ≠ .started u p w) ∨
      ∃ op op' rest n enc, new = [.started op'.uid op'.packet
          ((stepsBytes enc.steps).drop (stepsBytes c.ops.encoder.steps).length)] ∧
        c.ops.queued = op :: rest ∧ c.invalid cfg op.packet = none ∧
        (c.ctl.state = .connected ∨ c.ctl.state = .mqttConnect ∧ isConnect op.packet = true ∨
          c.ctl.state = .cleanDisconnect ∧ isDisconnect op.packet = true) ∧
        ({ c.ops with queued := rest } : OpState).bind op = some ({ c.ops with queued := rest, nextId := n }, op') ∧
        c.ops.encoder.append op'.packet = .ok enc ∧
        c'.ops = { c.ops with
          queued := rest, nextId := n, encoder := enc, current := some op'
          log := c.ops.log ++ [.started op'.uid op'.packet
            ((stepsBytes enc.steps).drop (stepsBytes c.ops.encoder.steps).length)] })

/-- Only the move that sets up an operation logs it as started. -/
theorem move_started {cfg : Config} {c c' : Client} (m : Move cfg c c') : SetsUp cfg c c' := by
  have same : ∀ {c' : Client} {new}, c'.ops.log = c.ops.log ++ new → (∀ e ∈ new, ∀ u p w, e ≠ .started u p w) →
      SetsUp cfg c c' :=
    fun h1 h2 => ⟨_, h1, Or.inl h2⟩
  cases m with
  | control k hk => exact same (List.append_nil _).symm (by simp)
  | accept p t hp hs hst => exact same rfl (by simp)
  | reject p e hp => exact same rfl (by simp)
  | push p hp hst => exact same (List.append_nil _).symm (by simp)
  | publish v a hst =>
    obtain ⟨s1, ctl, hs, hl, hx⟩ := onPublish_queue c.ops v a
    rcases hx with hx | hx
    · exact same (by simp only [hx]; exact hl) (by simp)
    · exact same (new := [.delivered v ctl, .pubackQueued s1.nextUid v.packetId])
        (by simp only [hx]; simp [OpState.queuePuback, hl]) (by simp)
  | invoke ctl hst =>
    rcases invoke_queue c.ops ctl with ⟨id, s1, _, hs, hl, _, _, _, hx⟩ | ⟨_, hs, hl, _⟩
    · exact same (new := [.invoked ctl (some id), .pubackQueued s1.nextUid id])
        (by simp only [hx]; simp [OpState.queuePuback, hl]) (by simp)
    · exact same hl (by simp)
  | token id hst => exact same rfl (by simp)
  | invalid op rest e hq he => exact same rfl (by simp)
  | start op rest s ok hq hc he hst hs =>
    rcases setCurrent_cases hs with ⟨_, p, n, enc, rfl, _⟩ | ⟨_, op', n, enc, rfl, hb, ha⟩
    · exact same rfl (by simp)
    · exact ⟨_, rfl, .inr ⟨op, op', rest, n, enc, rfl, hq, he, hst, hb, ha, rfl⟩⟩
  | encode op buf buf' enc r hc he => exact same (List.append_nil _).symm (by simp)
  | finish op now s hc hsteps hs =>
    obtain ⟨_, hcase⟩ := finish_cases hs
    have hlog : s.log = c.ops.log ++ [.encoded op.uid op.packet] := by
      rcases hcase with ⟨_, _, rfl⟩ | ⟨_, rfl⟩ <;> rfl
    exact same hlog (by simp)
  | write data => exact same rfl (by simp)
  | pinged uid => exact same rfl (by simp)
  | unwrite => exact same (List.append_nil _).symm (by simp)
  | written e => exact same (by rw [completeAll_eq]) (completions_started _ _)
  | ack id uid op rest e a ht hu => exact same rfl (by simp)
  | timeout op rest hu ht => exact same rfl (by simp)
  | forget uid => exact same (List.append_nil _).symm (by simp)
  | fresh hst => exact same (List.append_nil _).symm (by simp)
  | disconnection e st hst =>
    refine same (onDisconnection_log _ _) ?_
    intro x hx u p w
    rcases List.mem_append.1 hx with hx | hx
    · exact completions_started _ _ x hx u p w
    · simp at hx; subst hx; simp
  | connection settings now hst =>
    refine same (new := completions (lostOnConnection cfg settings c.ops) .offlinePolicy ++ [.connected settings])
      (by simp [Client.toConnected]) ?_
    intro x hx u p w
    rcases List.mem_append.1 hx with hx | hx
    · exact completions_started _ _ x hx u p w
    · simp at hx; subst hx; simp
  | reset hst => exact same (new := completions (c.ops.queued ++ c.ops.writing ++ c.ops.unacked) .userStop) (by simp only [Client.toStopped, resetAll_log]) (completions_started _ _)
  | terminate hst hd => exact same (new := completions (c.ops.queued ++ c.ops.writing ++ c.ops.unacked) .terminated) (by simp only [Client.toTerminated, resetAll_log]) (completions_started _ _)

structure SizeInv (cfg : Config) (c : Client) : Prop where
  safe : SafeInv cfg c
  settings : SettingsInv c
  bare : BareInv c
  line : LineInv c.ops
  kind : KindInv c
  sized : Each (Sized cfg) c.ops.log

theorem size_move {cfg : Config} {c c' : Client} (h : SizeInv cfg c) (m : Move cfg c c') : SizeInv cfg c' := by
  refine ⟨safe_move h.safe m, settings_move h.safe.inv.live h.settings m, bare_move h.safe.inv.held h.bare m,
    line_move h.safe.inv.live h.line m, kind_move h.safe.inv.held h.safe.inv.live h.line h.kind m, ?_⟩
  obtain ⟨new, hl, hn | ⟨op, op', rest, n, enc, rfl, hq, he, hst, hb, ha, _⟩⟩ := move_started m
  · rw [hl]; exact sized_none h.sized hn
  · rw [hl]
    refine h.sized.append fun a x b hab u p w s hx hf i j hi hj => ?_
    cases a with
    | cons y a => simp at hab
    | nil =>
      simp only [List.nil_append, List.cons.injEq] at hab
      rw [List.append_nil] at hf hi
      rw [← hab.1] at hx
      cases hx
      refine start_size h.safe h.settings h.bare h.line h.kind hq he ?_ hb ha hf i j hi hj
      rcases hst with hst | ⟨hst, _⟩ | ⟨hst, _⟩
      · exact .inl hst
      · have := h.safe.inv.live.down (.inr hst)
        rw [← inForce_live, hf] at this
        cases this
      · exact .inr hst

theorem reachable_size {cfg : Config} {c : Client} (h : Reachable cfg c) : SizeInv cfg c :=
  reachable_inv (P := SizeInv cfg)
    ⟨⟨⟨held_new cfg, live_new cfg, track_new cfg⟩, window_new cfg, flow_new cfg, life_new cfg, origin_new cfg,
      alias_new cfg⟩, .off rfl, by intro op ho; simp [Client.new, OpState.held] at ho, line_new cfg,
      by intro op ho; simp [Client.new, OpState.held] at ho, Each.nil _⟩
    (fun _ _ => size_move) h

end Mqtt.Client5
