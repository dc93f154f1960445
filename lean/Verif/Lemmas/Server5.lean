import Verif.Lemmas.Decoder5

namespace Mqtt.V5
open Mqtt Mqtt.Spec5 Mqtt.TopicAlias

/-! ### The first byte -/

theorem first_type (b : UInt8) : typeOf b = b.toNat / 16 := by
  revert b; apply all_bytes; decide +kernel

theorem first_flags (b : UInt8) : b &&& 0x0F = 0 ↔ b.toNat % 16 = 0 := by
  revert b; apply all_bytes; decide +kernel

theorem first_dup (b : UInt8) : decide (b &&& 8 ≠ 0) = (b.toNat % 16 / 8 == 1) := by
  revert b; apply all_bytes; decide +kernel

theorem first_retain (b : UInt8) : decide (b &&& 1 ≠ 0) = (b.toNat % 16 % 2 == 1) := by
  revert b; apply all_bytes; decide +kernel

theorem first_qos (b : UInt8) : ((b >>> 1) &&& 3).toNat = b.toNat % 16 / 2 % 4 := by
  revert b; apply all_bytes; decide +kernel

theorem connect_flags (n : Nat) (h : n < 256) : UInt8.ofNat n &&& 0xFE = 0 ↔ n ≤ 1 := by
  revert n h; decide +kernel

theorem session_present (n : Nat) (h : n ≤ 1) : decide (UInt8.ofNat n &&& 0x01 ≠ 0) = (n == 1) := by
  have : n = 0 ∨ n = 1 := by omega
  rcases this with rfl | rfl <;> decide

theorem byte_lt {bs r : Bytes} {n : Nat} (h : byte bs = some (n, r)) : n < 256 := by
  cases bs with
  | nil => simp [byte] at h
  | cons b bs => simp only [byte_cons, Option.some.injEq, Prod.mk.injEq] at h; rw [← h.1]; exact b.toNat_lt

/-! ### Property sections -/

theorem readProperties_eq {α : Type} {read : α → Bytes → Option (α × Bytes)} {apply : α → Property → Option α}
    (hf : Factors read apply) (v : α) (cur : Bytes) :
    readProperties read v cur = (propertiesOf cur.length cur).bind fun ps => ps.foldlM apply v :=
  loop_factors hf _ _ _

theorem lastProperties_eq {α : Type} {read : α → Bytes → Option (α × Bytes)} {apply : α → Property → Option α}
    (hf : Factors read apply) (v : α) (cur : Bytes) :
    lastProperties read v cur = (properties cur).bind fun x => if x.2 = [] then x.1.foldlM apply v else none := by
  unfold lastProperties properties
  rw [getVli_eq]
  cases vbi cur with
  | none => rfl
  | some x =>
    obtain ⟨n, r⟩ := x
    simp only [bind, Option.bind_some]
    by_cases h1 : n = r.length
    · subst h1
      rw [if_neg (by simp), readProperties_eq hf]
      have e : raw r.length r = some (r, []) := by simp [raw]
      rw [e]
      simp only [Option.bind_some]
      cases propertiesOf r.length r <;> simp
    · rw [if_pos h1]
      unfold raw
      by_cases h2 : n ≤ r.length
      · rw [if_pos h2]
        simp only [Option.bind_some]
        cases propertiesOf (r.take n).length (r.take n) with
        | none => rfl
        | some ps =>
          simp only [Option.bind_some]
          rw [if_neg]
          intro h
          have := congrArg List.length h
          simp at this; omega
      · rw [if_neg h2]; rfl

/-- A property section followed by more. -/
theorem innerProperties_eq {α β : Type} {read : α → Bytes → Option (α × Bytes)} {apply : α → Property → Option α}
    (hf : Factors read apply) (v : α) {n : Nat} {r : Bytes} (hn : n ≤ r.length) (k : α → Bytes → Option β) :
    ((readProperties read v (advance n r).1).bind fun v => k v (advance n r).2) =
      ((raw n r).bind fun x => (propertiesOf x.1.length x.1).bind fun ps =>
        (ps.foldlM apply v).bind fun v => k v x.2) := by
  rw [readProperties_eq hf]
  unfold raw advance
  rw [if_pos hn, if_pos hn]
  simp only [Option.bind_some]
  cases propertiesOf (r.take n).length (r.take n) <;> rfl

/-! ### Packets -/

def publishStart (p : Publish) : PublishView :=
  { duplicate := p.dup, retain := p.retain, qos := p.qos, topic := p.topic, packetId := p.packetId.getD 0 }

/-- What the decoder makes of a packet of the grammar. -/
def finish (resolver : Option Inbound) : ServerPacket → Option (Received × Option Inbound)
  | .connack present reason ps =>
    (ps.foldlM applyConnack { sessionPresent := present, reasonCode := reason }).map fun v => (.connack v, resolver)
  | .publish p =>
    ((p.props.foldlM applyPublish (publishStart p)).bind fun v =>
      applyAlias resolver { v with payload := p.payload }).map fun x => (.publish x.1, x.2)
  | .puback id reason ps =>
    (ps.foldlM applyPuback { packetId := id, reasonCode := reason }).map fun v => (.puback v, resolver)
  | .suback id ps codes =>
    (ps.foldlM applySuback { packetId := id }).map fun v => (.suback { v with reasonCodes := codes }, resolver)
  | .unsuback id ps codes =>
    (ps.foldlM applySuback { packetId := id }).map fun v => (.unsuback { v with reasonCodes := codes }, resolver)
  | .pingresp => some (.pingresp, resolver)
  | .disconnect reason ps =>
    (ps.foldlM applyDisconnect { reasonCode := reason }).map fun v => (.disconnect v, resolver)

theorem connack_eq (res : Option Inbound) (first : UInt8) (body : Bytes) (hf : first.toNat % 16 = 0) :
    ((decodeConnack first body.length body).map fun v => (Received.connack v, res)) =
      (connack body).bind (finish res) := by
  unfold decodeConnack connack
  rw [if_neg (by simp [(first_flags first).2 hf]), if_neg (by simp), getU8_eq]
  cases h1 : byte body with
  | none => rfl
  | some x =>
    obtain ⟨flags, r⟩ := x
    simp only [bind, Option.bind_some]
    rw [getU8_eq]
    by_cases hfl : flags ≤ 1
    · rw [if_neg (by simp [(connect_flags flags (byte_lt h1)).2 hfl])]
      cases byte r with
      | none => rfl
      | some y =>
        simp only [Option.bind_some]
        rw [lastProperties_eq connack_factors, session_present flags hfl]
        cases properties y.2 with
        | none => rfl
        | some z =>
          simp only [Option.bind_some, hfl, true_and]
          by_cases hz : z.2 = []
          · rw [if_pos hz, if_pos hz]; rfl
          · rw [if_neg hz, if_neg hz]; rfl
    · rw [if_pos (by simp [connect_flags flags (byte_lt h1), hfl])]
      simp only [hfl, false_and, if_false]
      cases byte r with
      | none => rfl
      | some y =>
        simp only [Option.bind_some]
        cases properties y.2 <;> rfl

theorem puback_eq (res : Option Inbound) (first : UInt8) (body : Bytes) (hf : first.toNat % 16 = 0) :
    ((decodePuback first body.length body).map fun v => (Received.puback v, res)) =
      ((puback body).bind shared).bind (finish res) := by
  unfold decodePuback puback
  rw [if_neg (by simp [(first_flags first).2 hf]), if_neg (by simp), getU16_eq]
  cases two body with
  | none => rfl
  | some x =>
    obtain ⟨id, r⟩ := x
    simp only [bind, Option.bind_some]
    cases r with
    | nil => rfl
    | cons b r =>
      rw [if_pos (by simp), if_neg (by simp), getU8_eq, byte_cons]
      simp only [Option.bind_some]
      cases r with
      | nil => rfl
      | cons c r =>
        rw [if_pos (by simp), if_neg (by simp), lastProperties_eq puback_factors]
        cases properties (c :: r) with
        | none => rfl
        | some z =>
          simp only [Option.bind_some]
          by_cases hz : z.2 = []
          · rw [if_pos hz, if_pos hz]; rfl
          · rw [if_neg hz, if_neg hz]; rfl

theorem disconnect_eq (res : Option Inbound) (first : UInt8) (body : Bytes) (hf : first.toNat % 16 = 0) :
    ((decodeDisconnect first body.length body).map fun v => (Received.disconnect v, res)) =
      ((disconnect body).bind shared).bind (finish res) := by
  unfold decodeDisconnect disconnect
  rw [if_neg (by simp [(first_flags first).2 hf]), if_neg (by simp)]
  cases body with
  | nil => rfl
  | cons b r =>
    rw [if_pos (by simp), if_neg (by simp), getU8_eq, byte_cons]
    simp only [bind, Option.bind_some]
    cases r with
    | nil => rfl
    | cons c r =>
      rw [if_neg (by simp), if_neg (by simp), lastProperties_eq disconnect_factors]
      cases properties (c :: r) with
      | none => rfl
      | some z =>
        simp only [Option.bind_some]
        by_cases hz : z.2 = []
        · rw [if_pos hz, if_pos hz]; rfl
        · rw [if_neg hz, if_neg hz]; rfl

theorem publish_eq (res : Option Inbound) (first : UInt8) (body : Bytes)
    (hq : first.toNat % 16 / 2 % 4 ≠ 3) :
    ((decodePublish res first body.length body).map fun x => (Received.publish x.1, x.2)) =
      ((publish (first.toNat % 16) body).bind shared).bind (finish res) := by
  unfold decodePublish publish
  simp only [first_qos, first_dup, first_retain]
  rw [if_neg (by simp), getPrefixed_eq]
  cases text body with
  | none => rfl
  | some x =>
    obtain ⟨topic, r⟩ := x
    simp only [bind, Option.bind_some, if_neg hq]
    -- the packet identifier
    have hid : (if first.toNat % 16 / 2 % 4 > 0 then getU16 r else some (0, r)) =
        (Spec5.optional (first.toNat % 16 / 2 % 4 != 0) two r).map fun x => (x.1.getD 0, x.2) := by
      unfold Spec5.optional
      rw [getU16_eq]
      by_cases h0 : first.toNat % 16 / 2 % 4 = 0
      · simp [h0]
      · have h1 : first.toNat % 16 / 2 % 4 > 0 := by omega
        rw [if_pos h1, if_pos (by simp [h0])]
        cases two r <;> rfl
    rw [hid]
    cases Spec5.optional (first.toNat % 16 / 2 % 4 != 0) two r with
    | none => rfl
    | some y =>
      obtain ⟨id, r2⟩ := y
      simp only [Option.map_some, Option.bind_some]
      rw [getVli_eq]
      unfold properties
      cases vbi r2 with
      | none => rfl
      | some z =>
        obtain ⟨n, r3⟩ := z
        simp only [bind, Option.bind_some]
        by_cases hn : n ≤ r3.length
        · rw [if_neg (by omega), readProperties_eq publish_factors]
          unfold raw advance
          rw [if_pos hn, if_pos hn]
          simp only [Option.bind_some]
          cases propertiesOf (r3.take n).length (r3.take n) with
          | none => rfl
          | some ps =>
            simp only [Option.bind_some, shared, finish, publishStart]
            cases ps.foldlM applyPublish _ <;> rfl
        · rw [if_pos (by omega)]
          unfold raw
          rw [if_neg hn]; rfl

theorem suback_eq (make : Nat → List Property → List Nat → ServerPacket) (f : SubackView → Received)
    (res : Option Inbound) (hm : ∀ id ps codes, finish res (make id ps codes) =
      (ps.foldlM applySuback { packetId := id }).map fun v => (f { v with reasonCodes := codes }, res))
    (body : Bytes) (hfit : ∀ id r n r2, two body = some (id, r) → vbi r = some (n, r2) → n ≤ r2.length) :
    ((decodeSuback body).map fun v => (f v, res)) = (ackList make body).bind (finish res) := by
  unfold decodeSuback ackList
  rw [getU16_eq]
  cases h1 : two body with
  | none => rfl
  | some x =>
    obtain ⟨id, r⟩ := x
    simp only [bind, Option.bind_some]
    rw [getVli_eq]
    unfold properties
    cases h2 : vbi r with
    | none => rfl
    | some z =>
      obtain ⟨n, r3⟩ := z
      have hn := hfit id r n r3 h1 h2
      simp only [bind, Option.bind_some]
      rw [readProperties_eq suback_factors]
      unfold raw advance
      rw [if_pos hn, if_pos hn]
      simp only [Option.bind_some]
      cases propertiesOf (r3.take n).length (r3.take n) with
      | none => rfl
      | some ps =>
        simp only [Option.bind_some, hm]
        cases ps.foldlM applySuback _ <;> rfl

theorem pingresp_eq (res : Option Inbound) (first : UInt8) (body : Bytes) (h : first.toNat / 16 = 13) :
    (if decodePingresp first body.length body then some (Received.pingresp, res) else none) =
      (if first.toNat % 16 ≠ 0 then none else if body = [] then some ServerPacket.pingresp else none).bind
        (finish res) := by
  by_cases h0 : first.toNat % 16 = 0
  · have : first = 0xD0 := by
      apply UInt8.toNat_inj.1
      show first.toNat = 208
      omega
    subst this
    cases body with
    | nil => rfl
    | cons b r => simp [decodePingresp]
  · have hn : ¬ first = 0xD0 := by
      rintro rfl
      exact h0 rfl
    simp [decodePingresp, hn, h0]

/-- The property length of a SUBACK or UNSUBACK does not run past the end of the packet. -/
def SectionFits (body : Bytes) : Prop :=
  ∀ id r n r2, two body = some (id, r) → vbi r = some (n, r2) → n ≤ r2.length

/-- Decoding is reading by the grammar, then applying the properties. The exceptions are the
flags of SUBACK and UNSUBACK, their property length, and PUBLISH with QoS 3. -/
theorem decode_eq (res : Option Inbound) (first : UInt8) (body : Bytes)
    (hack : first.toNat / 16 = 9 ∨ first.toNat / 16 = 11 → first.toNat % 16 = 0 ∧ SectionFits body)
    (hpub : first.toNat / 16 = 3 → first.toNat % 16 / 2 % 4 ≠ 3) :
    decodePacket res first body.length body =
      (serverDispatch (first.toNat / 16) (first.toNat % 16) body).bind (finish res) := by
  unfold decodePacket serverDispatch
  rw [first_type]
  have hlow : ∀ {α : Type} (x : Option α), first.toNat % 16 ≠ 0 →
      (if first &&& 0x0F ≠ 0 then none else x) = none := by
    intro α x h
    rw [if_pos]; rw [Ne, first_flags]; exact h
  split
  · rename_i h; rw [h, if_neg (by simp)]
    by_cases h0 : first.toNat % 16 = 0
    · rw [if_neg (by simp [h0])]; exact connack_eq res first body h0
    · rw [if_pos h0]; unfold decodeConnack; rw [hlow _ h0]; rfl
  · rename_i h; rw [h, if_pos rfl]; exact publish_eq res first body (hpub h)
  · rename_i h; rw [h, if_neg (by simp)]
    by_cases h0 : first.toNat % 16 = 0
    · rw [if_neg (by simp [h0])]; exact puback_eq res first body h0
    · rw [if_pos h0]; unfold decodePuback; rw [hlow _ h0]; rfl
  · rename_i h; rw [h, if_neg (by simp)]
    obtain ⟨h0, hs⟩ := hack (Or.inl h)
    rw [if_neg (by simp [h0])]; exact suback_eq _ _ res (fun _ _ _ => rfl) body hs
  · rename_i h; rw [h, if_neg (by simp)]
    obtain ⟨h0, hs⟩ := hack (Or.inr h)
    rw [if_neg (by simp [h0])]; exact suback_eq _ _ res (fun _ _ _ => rfl) body hs
  · rename_i h
    rw [pingresp_eq res first body h, h]; rfl
  · rename_i h; rw [h, if_neg (by simp)]
    by_cases h0 : first.toNat % 16 = 0
    · rw [if_neg (by simp [h0])]; exact disconnect_eq res first body h0
    · rw [if_pos h0]; unfold decodeDisconnect; rw [hlow _ h0]; rfl
  · rw [if_neg (by assumption)]
    split
    · rfl
    · split <;> simp_all

end Mqtt.V5
