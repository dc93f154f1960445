import Verif.Lemmas.Packets311

/-!
C04: a length prefix that announces more bytes than the packet contains must be rejected.
The code does not do so (packets.c:43-58); what remains true is that a packet decoded with a
non-empty topic is exactly the packet on the wire.
-/
namespace Mqtt.Props
open Mqtt Mqtt.Spec

/-- The first string of a packet body is malformed: its prefix announces more than is there. -/
def overlongPrefix (body : Bytes) : Prop :=
  ∃ hi lo rest, body = hi :: lo :: rest ∧ hi.toNat * 256 + lo.toNat > rest.length

/-- C04 is violated for PUBLISH: a 7 byte packet whose topic announces 65535 bytes is accepted. -/
theorem C04_publish_violated :
    ∃ body bytes p, IsReceivedFrame 0x30 body bytes ∧ overlongPrefix body ∧
      publishDecode bytes = .ok (p, []) := by
  refine ⟨[0xFF, 0xFF, 1, 2, 3], [0x30, 5, 0xFF, 0xFF, 1, 2, 3],
    { header := { packetType := 3, remainingLength := 5, flags := 0 }, packetId := 0, topic := [],
      payload := [1, 2, 3] }, ⟨[5], ⟨[], 5, rfl, by decide, by simp, by decide, by decide⟩, rfl⟩,
    ⟨0xFF, 0xFF, [1, 2, 3], rfl, by decide⟩, by decide +kernel⟩

/-- C04 is violated for SUBSCRIBE too: the filter announces 65535 bytes, one byte follows. -/
theorem C04_subscribe_violated :
    ∃ body bytes p, IsReceivedFrame 0x82 body bytes ∧ overlongPrefix (body.drop 2) ∧
      subscribeDecode bytes = .ok (p, []) := by
  refine ⟨[0, 1, 0xFF, 0xFF, 1], [0x82, 5, 0, 1, 0xFF, 0xFF, 1],
    { header := { packetType := 8, remainingLength := 5, flags := 2 }, packetId := 1,
      filters := [⟨[], 1⟩] }, ⟨[5], ⟨[], 5, rfl, by decide, by simp, by decide, by decide⟩, rfl⟩,
    ⟨0xFF, 0xFF, [1], rfl, by decide⟩, by decide +kernel⟩

theorem decodeBuffer_ok {cur s rest : Bytes} (h : decodeBuffer cur = .ok (s, rest)) :
    cur = str s ++ rest ∧ s.length ≤ 65535 ∨ s = [] := by
  unfold decodeBuffer at h
  cases hr : readBe16 cur with
  | none => simp [hr, orShort, bind, Except.bind] at h
  | some r =>
    obtain ⟨len, cur'⟩ := r
    have hcur := be16_of_readBe16 hr
    simp only [hr, orShort, bind, Except.bind, Except.ok.injEq, advance] at h
    split at h <;> simp only [Prod.mk.injEq] at h
    · rename_i hle
      left
      obtain ⟨rfl, rfl⟩ := h
      have hl : (cur'.take len.toNat).length = len.toNat := by simp; omega
      have hlt : len.toNat < 65536 := len.toNat_lt
      refine ⟨?_, by omega⟩
      rw [str_eq _ (by omega), hl]
      simp [hcur]
    · right; exact h.1.symm

/-- C04, true part: whenever a received PUBLISH is accepted with a non-empty topic, the body was
exactly topic, packet id (iff QoS > 0) and payload as decoded, so every prefix was honest. Missing:
with an over-long prefix the decoder may accept the packet with an empty topic. -/
theorem C04_publish_faithful_partial (b1 : UInt8) (body bytes rest : Bytes) (p : PublishPacket)
    (hframe : IsReceivedFrame b1 body bytes) (hb1 : b1.toNat / 16 = 3)
    (hdec : publishDecode bytes = .ok (p, rest)) (htopic : p.topic ≠ []) :
    rest = [] ∧ b1.toNat / 2 % 4 ≤ 2 ∧
    body = publishBody p.topic (b1.toNat / 2 % 4) p.packetId p.payload ∧
    publishQos p = b1.toNat / 2 % 4 ∧ publishDup p = decide (b1.toNat / 8 % 2 = 1) ∧
    publishRetain p = decide (b1.toNat % 2 = 1) := by
  have hbits : (b1 >>> 4).toNat = 3 ∧ ((b1 &&& 0xF) >>> 1 &&& 3).toNat = b1.toNat / 2 % 4 ∧
      decide ((b1 &&& 0xF) &&& 8 ≠ 0) = decide (b1.toNat / 8 % 2 = 1) ∧
      decide ((b1 &&& 0xF) &&& 1 ≠ 0) = decide (b1.toNat % 2 = 1) := by
    revert hb1
    refine all_bytes (P := fun b1 => b1.toNat / 16 = 3 → (b1 >>> 4).toNat = 3 ∧
      ((b1 &&& 0xF) >>> 1 &&& 3).toNat = b1.toNat / 2 % 4 ∧
      decide ((b1 &&& 0xF) &&& 8 ≠ 0) = decide (b1.toNat / 8 % 2 = 1) ∧
      decide ((b1 &&& 0xF) &&& 1 ≠ 0) = decide (b1.toNat % 2 = 1)) ?_ b1
    decide +kernel
  obtain ⟨ht, hq, hdup, hret⟩ := hbits
  have hlen : body.length < 2 ^ 28 := by
    obtain ⟨vs, hv, _⟩ := hframe; exact lengthField_lt hv
  unfold publishDecode at hdec
  rw [fixedHeaderDecode_received hframe, ht] at hdec
  rw [if_neg (by simp [packetHasFlags, PUBLISH])] at hdec
  simp only [ok_bind, hq] at hdec
  cases hdb : decodeBuffer body with
  | error e => simp [hdb, bind, Except.bind] at hdec
  | ok r =>
    obtain ⟨topic, cur⟩ := r
    simp only [hdb, ok_bind] at hdec
    have hbl := decodeBuffer_length hdb
    split at hdec
    · simp at hdec
    · rename_i hq2
      have hsub : subSize body.length (sizeofEncodedBuffer topic) = cur.length := by
        rw [subSize_eq _ _ (by simp [sizeofEncodedBuffer]; omega), sizeofEncodedBuffer]; omega
      rw [hsub] at hdec
      by_cases hq0 : b1.toNat / 2 % 4 > 0
      · simp only [hq0, if_true] at hdec
        cases hr : readBe16 cur with
        | none => simp [hr, orShort, bind, Except.bind] at hdec
        | some r =>
          obtain ⟨id, cur'⟩ := r
          have hl2 := readBe16_length hr
          have hsub2 : subSize cur.length 2 = cur'.length := by
            rw [subSize_eq _ _ (by omega)]; omega
          simp only [hr, orShort, ok_bind, hsub2, advance, Nat.le_refl, if_true] at hdec
          rw [if_neg (by simp)] at hdec
          simp only [Except.ok.injEq, Prod.mk.injEq] at hdec
          obtain ⟨rfl, rfl⟩ := hdec
          simp only at htopic
          rcases decodeBuffer_ok hdb with ⟨hbody, _⟩ | hnil
          · refine ⟨by simp, by omega, ?_, ?_, hdup, hret⟩
            · rw [publishBody, if_neg (by omega), hbody, be16_of_readBe16 hr]; simp [u16_eq]
            · simp only [publishQos, hq]
          · exact absurd hnil htopic
      · simp only [hq0, if_false, ok_bind, advance, Nat.le_refl, if_true] at hdec
        rw [if_neg (by simp)] at hdec
        simp only [Except.ok.injEq, Prod.mk.injEq] at hdec
        obtain ⟨rfl, rfl⟩ := hdec
        simp only at htopic
        rcases decodeBuffer_ok hdb with ⟨hbody, _⟩ | hnil
        · refine ⟨by simp, by omega, ?_, ?_, hdup, hret⟩
          · rw [publishBody, if_pos (by omega), hbody]; simp
          · simp only [publishQos, hq]
        · exact absurd hnil htopic

/-- A QoS 1 PUBLISH on topic "t" with id 7 and payload "x" meets the hypotheses. -/
example : IsReceivedFrame 0x32 [0, 1, 116, 0, 7, 120] [0x32, 6, 0, 1, 116, 0, 7, 120] ∧
    publishDecode [0x32, 6, 0, 1, 116, 0, 7, 120] = .ok
      ({ header := { packetType := 3, remainingLength := 6, flags := 2 }, packetId := 7, topic := [116],
         payload := [120] }, []) :=
  ⟨⟨[6], ⟨[], 6, rfl, by decide, by simp, by decide, by decide⟩, rfl⟩, by decide +kernel⟩

/-- C04, true part: a body too short to hold even the length prefix is always rejected. -/
theorem C04_publish_short_rejected (b1 : UInt8) (body bytes : Bytes)
    (hframe : IsReceivedFrame b1 body bytes) (hb : body.length < 2) :
    ∃ e, publishDecode bytes = .error e := by
  unfold publishDecode
  rw [fixedHeaderDecode_received hframe]
  have : readBe16 body = none := by
    match body, hb with
    | [], _ => rfl
    | [_], _ => rfl
  split
  · exact ⟨_, rfl⟩
  · exact ⟨.shortBuffer, by simp [ok_bind, decodeBuffer, this, orShort, bind, Except.bind]⟩

end Mqtt.Props
