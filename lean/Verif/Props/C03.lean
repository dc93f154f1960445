import Verif.Lemmas.Packets311

/-!
C03: every MQTT 3.1.1 control packet built through the packet API is written in the format of the
standard (`Verif/Spec/Wire311.lean`) and decodes back to itself.

Shape of every theorem: there is a byte string `bytes` which is a frame of the standard with the
body the standard prescribes, encoding into any buffer appends exactly `bytes` (or reports that the
buffer is too small), and decoding `bytes` returns the packet with nothing left over.
-/
namespace Mqtt.Props
open Mqtt Mqtt.Spec

/-- PUBACK, PUBREC, PUBREL, PUBCOMP, UNSUBACK. -/
theorem C03_ack_roundtrip (id : UInt16) (p : AckPacket) (t f : Nat)
    (hp : (p, t, f) ∈ [(pubackInit id, 4, 0), (pubrecInit id, 5, 0), (pubrelInit id, 6, 2),
      (pubcompInit id, 7, 0), (unsubackInit id, 11, 0)]) :
    ∃ bytes, IsFrame t f (u16 id) bytes ∧ (∀ b : Buf, ackEncode b p = b.put bytes) ∧
      ackDecode bytes = .ok (p, []) := by
  refine ⟨frameBytes t f (u16 id), isFrame_frameBytes _ _ _, ?_, ?_⟩
  · intro b
    simp only [List.mem_cons, Prod.mk.injEq, List.not_mem_nil, or_false] at hp
    rcases hp with ⟨rfl, rfl, rfl⟩ | ⟨rfl, rfl, rfl⟩ | ⟨rfl, rfl, rfl⟩ | ⟨rfl, rfl, rfl⟩ | ⟨rfl, rfl, rfl⟩
    · exact headerEncode_then b 4 0 (u16 id) (by decide) (by decide) (by decide) 2 rfl
    · exact headerEncode_then b 5 0 (u16 id) (by decide) (by decide) (by decide) 2 rfl
    · exact headerEncode_then b 6 2 (u16 id) (by decide) (by decide) (by decide) 2 rfl
    · exact headerEncode_then b 7 0 (u16 id) (by decide) (by decide) (by decide) 2 rfl
    · exact headerEncode_then b 11 0 (u16 id) (by decide) (by decide) (by decide) 2 rfl
  · simp only [List.mem_cons, Prod.mk.injEq, List.not_mem_nil, or_false] at hp
    have hr : readBe16 (u16 id) = some (id, []) := readBe16_be16 id []
    rcases hp with ⟨rfl, rfl, rfl⟩ | ⟨rfl, rfl, rfl⟩ | ⟨rfl, rfl, rfl⟩ | ⟨rfl, rfl, rfl⟩ | ⟨rfl, rfl, rfl⟩ <;>
    (unfold ackDecode
     rw [headerDecode_frame _ _ _ (by decide) (by decide) (by decide) (by simp)]
     simp only [bind, Except.bind, hr, orShort]
     rfl)

/-- PINGREQ, PINGRESP, DISCONNECT. -/
theorem C03_connection_roundtrip (p : FixedHeader) (t : Nat)
    (hp : (p, t) ∈ [(pingreqInit, 12), (pingrespInit, 13), (disconnectInit, 14)]) :
    ∃ bytes, IsFrame t 0 [] bytes ∧ (∀ b : Buf, connectionEncode b p = b.put bytes) ∧
      connectionDecode bytes = .ok (p, []) := by
  refine ⟨frameBytes t 0 [], isFrame_frameBytes _ _ _, ?_, ?_⟩
  · intro b
    simp only [List.mem_cons, Prod.mk.injEq, List.not_mem_nil, or_false] at hp
    rcases hp with ⟨rfl, rfl⟩ | ⟨rfl, rfl⟩ | ⟨rfl, rfl⟩ <;>
    (unfold connectionEncode
     rw [fixedHeaderEncode_eq _ _ (by decide)]
     simp [frameBytes, pingreqInit, pingrespInit, disconnectInit, connectionInit, PINGREQ, PINGRESP, DISCONNECT]
     rfl)
  · simp only [List.mem_cons, Prod.mk.injEq, List.not_mem_nil, or_false] at hp
    rcases hp with ⟨rfl, rfl⟩ | ⟨rfl, rfl⟩ | ⟨rfl, rfl⟩ <;>
    (unfold connectionDecode
     rw [headerDecode_frame _ _ _ (by decide) (by decide) (by decide) (by decide)]
     rfl)

/-- CONNACK. -/
theorem C03_connack_roundtrip (sp : Bool) (rc : UInt8) :
    ∃ bytes, IsFrame 2 0 [if sp then 1 else 0, rc] bytes ∧
      (∀ b : Buf, connackEncode b (connackInit sp rc) = b.put bytes) ∧
      connackDecode bytes = .ok (connackInit sp rc, []) := by
  refine ⟨frameBytes 2 0 [if sp then 1 else 0, rc], isFrame_frameBytes _ _ _, ?_, ?_⟩
  · intro b
    unfold connackEncode
    simp only [Buf.put_bind]
    exact headerEncode_then b 2 0 _ (by decide) (by decide) (by decide) 2 rfl
  · unfold connackDecode
    rw [headerDecode_frame _ _ _ (by decide) (by decide) (by decide) (by simp)]
    cases sp <;> simp [bind, Except.bind, orShort, readU8, connackInit, CONNACK]

/-- PUBLISH: every topic of 1 to 65535 bytes, any payload that fits, any QoS, flags and id. -/
theorem C03_publish_roundtrip (retain : Bool) (qos : Nat) (dup : Bool) (topic : Bytes) (id : UInt16)
    (payload : Bytes) (hq : qos ≤ 2) (ht : topic.length ≤ 65535)
    (hlen : (publishBody topic qos id payload).length < 2 ^ 28) (hid : qos = 0 → id = 0) :
    let p := publishInit retain qos dup topic id payload
    ∃ bytes, IsFrame 3 (publishFlags retain qos dup) (publishBody topic qos id payload) bytes ∧
      (∀ b : Buf, publishEncode b p = b.put bytes) ∧
      publishDecode bytes = .ok (p, []) ∧
      publishQos p = qos ∧ publishDup p = dup ∧ publishRetain p = retain := by
  have hflags : UInt8.ofNat (retain.toNat ||| (qos &&& 3) <<< 1 ||| dup.toNat <<< 3) =
      UInt8.ofNat (publishFlags retain qos dup) ∧ publishFlags retain qos dup < 16 ∧
      ((UInt8.ofNat (publishFlags retain qos dup) >>> 1) &&& 3).toNat = qos ∧
      decide (UInt8.ofNat (publishFlags retain qos dup) &&& 8 ≠ 0) = dup ∧
      decide (UInt8.ofNat (publishFlags retain qos dup) &&& 1 ≠ 0) = retain := by
    have : qos = 0 ∨ qos = 1 ∨ qos = 2 := by omega
    rcases this with rfl | rfl | rfl <;> cases retain <;> cases dup <;> decide
  obtain ⟨hf1, hf2, hf3, hf4, hf5⟩ := hflags
  intro p
  have hp : p.header = ⟨3, (publishBody topic qos id payload).length,
      UInt8.ofNat (publishFlags retain qos dup)⟩ := by
    simp only [p, publishInit, hf1, PUBLISH, sizeofEncodedBuffer, publishBody]
    congr 1
    by_cases hq0 : qos = 0
    · simp [hq0]
    · simp [hq0, Nat.pos_of_ne_zero hq0]; omega
  refine ⟨frameBytes 3 (publishFlags retain qos dup) (publishBody topic qos id payload),
    isFrame_frameBytes _ _ _, ?_, ?_, ?_, ?_, ?_⟩
  · intro b
    have hpq : publishQos p = qos := by simp only [publishQos, hp, hf3]
    have hpt : p.topic = topic := rfl
    have hpi : p.packetId = id := rfl
    have hpp : p.payload = payload := rfl
    unfold publishEncode publishEncodeHeaders
    simp only [hpq, hpt, hpi, hpp, encodeBuffer_eq _ _ ht]
    rw [← headerEncode_then b 3 _ _ (by decide) hf2 (Or.inl rfl) _ rfl, ← hp]
    by_cases hq0 : qos = 0
    · simp only [publishBody, hq0, Nat.lt_irrefl, gt_iff_lt, if_true, if_false, List.append_nil, ← Buf.put_bind,
        bind_assoc, ok_bind]
    · have hpos : qos > 0 := by omega
      simp only [publishBody, hq0, if_false, hpos, if_true, ← Buf.put_bind, bind_assoc, u16_eq]
  · unfold publishDecode
    rw [headerDecode_frame _ _ _ (by decide) hf2 (Or.inl rfl) hlen]
    have hdec : decodeBuffer (publishBody topic qos id payload) =
        .ok (topic, (if qos = 0 then [] else u16 id) ++ payload) := by
      rw [publishBody, List.append_assoc, decodeBuffer_str _ _ ht]
    simp only [bind, Except.bind, hdec, hf3]
    rw [if_neg (by omega)]
    have hblen : (publishBody topic qos id payload).length =
        2 + topic.length + (if qos = 0 then 0 else 2) + payload.length := by
      by_cases hq0 : qos = 0 <;> simp [publishBody, hq0] <;> omega
    by_cases hq0 : qos = 0
    · have hp2 : (⟨p.header, 0, topic, payload⟩ : PublishPacket) = p := by
        simp [p, publishInit, hid hq0]
      rw [hp] at hp2
      simp only [hq0, if_true, Nat.add_zero] at hblen
      simp only [hq0, if_true, List.nil_append]
      rw [if_neg (by decide)]
      have hsub : subSize (publishBody topic 0 id payload).length (sizeofEncodedBuffer topic) = payload.length := by
        rw [← hq0, subSize_eq _ _ (by rw [hq0, hblen, sizeofEncodedBuffer]; omega), hq0, hblen, sizeofEncodedBuffer]
        omega
      have hadv : advance payload.length payload = (payload, []) := by simpa using advance_append payload []
      simp only [hsub, hadv]
      rw [hq0] at hp2
      simp [hp2]
    · have hp2 : (⟨p.header, id, topic, payload⟩ : PublishPacket) = p := by
        simp [p, publishInit]
      rw [hp] at hp2
      simp only [hq0, if_false] at hblen
      simp only [hq0, if_false]
      rw [if_pos (by omega)]
      have hsub : subSize (subSize (publishBody topic qos id payload).length (sizeofEncodedBuffer topic)) 2 =
          payload.length := by
        rw [subSize_eq (publishBody topic qos id payload).length _ (by rw [hblen, sizeofEncodedBuffer]; omega),
          hblen, sizeofEncodedBuffer, subSize_eq _ _ (by omega)]
        omega
      have hrd : readBe16 (u16 id ++ payload) = some (id, payload) := readBe16_be16 id payload
      have hadv : advance payload.length payload = (payload, []) := by simpa using advance_append payload []
      simp only [hrd, orShort, hsub, hadv]
      simp [hp2]
  · simp only [publishQos, hp, hf3]
  · simp only [publishDup, hp, hf4]
  · simp only [publishRetain, hp, hf5]

example : publishDecode [0x32, 9, 0, 3, 97, 47, 98, 0, 7, 104, 105] =
    .ok (publishInit false 1 false [97, 47, 98] 7 [104, 105], []) := by decide +kernel


/-- SUBSCRIBE: any list of filters of at most 65535 bytes with QoS 0..2, for a buffer with enough
room. (For smaller buffers see C05.) -/
theorem C03_subscribe_roundtrip (id : UInt16) (fs : List (Bytes × Nat))
    (hf : ∀ f ∈ fs, f.1.length ≤ 65535 ∧ f.2 ≤ 2) (hlen : (subscribeBody id fs).length < 2 ^ 28) :
    let p := fs.foldl (fun p f => subscribeAddTopic p f.1 f.2) (subscribeInit id)
    ∃ bytes, IsFrame 8 2 (subscribeBody id fs) bytes ∧
      (∀ b : Buf, b.data.length + bytes.length ≤ b.cap → subscribeEncode b p = b.put bytes) ∧
      subscribeDecode bytes = .ok (p, []) ∧
      p.filters = fs.map (fun f => ⟨f.1, f.2⟩) := by
  intro p
  have hbuild : ∀ (fs : List (Bytes × Nat)) (p0 : SubscribePacket),
      fs.foldl (fun p f => subscribeAddTopic p f.1 f.2) p0 =
        { header := { p0.header with
            remainingLength := p0.header.remainingLength +
              ((fs.map fun f => str f.1 ++ [UInt8.ofNat f.2]).flatten).length }
          packetId := p0.packetId
          filters := p0.filters ++ fs.map (fun f => ⟨f.1, f.2⟩) } := by
    intro fs
    induction fs with
    | nil => intro p0; simp
    | cons f fs ih =>
      intro p0
      rw [List.foldl_cons, ih]
      simp [subscribeAddTopic, sizeofEncodedBuffer, Nat.add_assoc]
      omega
  have hp : p = ⟨⟨8, (subscribeBody id fs).length, UInt8.ofNat 2⟩, id, fs.map (fun f => ⟨f.1, f.2⟩)⟩ := by
    simp only [p, hbuild]
    simp [subscribeInit, subscribeBody, SUBSCRIBE, bit1Flags]
  have hpf : p.filters = fs.map (fun f => ⟨f.1, f.2⟩) := by rw [hp]
  refine ⟨frameBytes 8 2 (subscribeBody id fs), isFrame_frameBytes _ _ _, ?_, ?_, hpf⟩
  · intro b hroom
    have hloop : ∀ (fs : List (Bytes × Nat)) (b : Buf),
        (∀ f ∈ fs, f.1.length ≤ 65535 ∧ f.2 ≤ 2) →
        b.data.length + ((fs.map fun f => str f.1 ++ [UInt8.ofNat f.2]).flatten).length ≤ b.cap →
        subscribeEncodeLoop b (fs.map (fun f => ⟨f.1, f.2⟩)) =
          b.put ((fs.map fun f => str f.1 ++ [UInt8.ofNat f.2]).flatten) := by
      intro fs
      induction fs with
      | nil => intro b _ hr; simp [subscribeEncodeLoop]; rw [Buf.put_nil]; simpa using hr
      | cons f fs ih =>
        intro b hf hr
        obtain ⟨hf1, hf2⟩ := hf f (by simp)
        simp only [List.map_cons, List.flatten_cons, List.length_append, str_length, List.length_singleton] at hr
        have hq : f.2 &&& 3 = f.2 := by
          have : f.2 = 0 ∨ f.2 = 1 ∨ f.2 = 2 := by omega
          rcases this with h | h | h <;> rw [h] <;> rfl
        simp only [List.map_cons, subscribeEncodeLoop, List.flatten_cons]
        rw [put_ignore b f.1 hf1 (by rw [str_length]; omega), hq]
        have e1 : ({ b with data := b.data ++ str f.1 } : Buf).put [UInt8.ofNat f.2] =
            .ok { b with data := b.data ++ (str f.1 ++ [UInt8.ofNat f.2]) } := by
          rw [Buf.put, if_pos (by simp; omega)]; simp
        rw [e1, ok_bind, ih _ (fun g hg => hf g (by simp [hg])) (by simp; simp at hr; omega)]
        rw [← Buf.put_bind b]
        have e2 : b.put (str f.1 ++ [UInt8.ofNat f.2]) =
            .ok { b with data := b.data ++ (str f.1 ++ [UInt8.ofNat f.2]) } := by
          rw [Buf.put, if_pos (by simp; omega)]
        rw [e2, ok_bind]
    simp only [frameBytes, List.length_append, List.length_cons] at hroom
    rw [← headerEncode_then b 8 2 _ (by decide) (by decide) (Or.inl rfl) _ rfl]
    unfold subscribeEncode
    simp only [hp]
    rw [fixedHeaderEncode_eq _ _ (Or.inl rfl)]
    apply put_bind_congr
    intro b1 hb1 hc1 _
    conv => rhs; rw [subscribeBody, ← Buf.put_bind]
    rw [u16_eq]
    apply put_bind_congr
    intro b2 hb2 hc2 _
    apply hloop fs b2 hf
    rw [hb2, hb1, hc2, hc1]
    have hl : (subscribeBody id fs).length =
        2 + ((fs.map fun f => str f.1 ++ [UInt8.ofNat f.2]).flatten).length := by
      simp only [subscribeBody, List.length_append, u16_length]
    simp only [List.length_cons, List.length_append, be16_length]
    omega
  · have hloop : ∀ (fs : List (Bytes × Nat)) (n : Nat),
        (∀ f ∈ fs, f.1.length ≤ 65535 ∧ f.2 ≤ 2) →
        n = ((fs.map fun f => str f.1 ++ [UInt8.ofNat f.2]).flatten).length → n < 2 ^ 28 →
        subscribeDecodeLoop n ((fs.map fun f => str f.1 ++ [UInt8.ofNat f.2]).flatten) =
          .ok (fs.map (fun f => ⟨f.1, f.2⟩), []) := by
      intro fs
      induction fs with
      | nil => intro n _ hn _; rw [subscribeDecodeLoop]; simp [hn]
      | cons f fs ih =>
        intro n hf hn hlt
        obtain ⟨hf1, hf2⟩ := hf f (by simp)
        simp only [List.map_cons, List.flatten_cons, List.length_append, str_length, List.length_singleton] at hn
        rw [subscribeDecodeLoop, if_neg (by omega)]
        have hd : decodeBuffer ((List.map (fun f => str f.1 ++ [UInt8.ofNat f.2]) (f :: fs)).flatten) =
            .ok (f.1, UInt8.ofNat f.2 :: (fs.map fun f => str f.1 ++ [UInt8.ofNat f.2]).flatten) := by
          simp only [List.map_cons, List.flatten_cons, List.append_assoc]
          rw [decodeBuffer_str _ _ hf1]; simp
        have hq : UInt8.ofNat f.2 >>> 2 = 0 ∧ UInt8.ofNat f.2 ≠ 3 ∧ (UInt8.ofNat f.2 &&& 3).toNat = f.2 := by
          have : f.2 = 0 ∨ f.2 = 1 ∨ f.2 = 2 := by omega
          rcases this with h | h | h <;> rw [h] <;> decide
        have hs : subSize n (sizeofEncodedBuffer f.1 + 1) =
            ((fs.map fun f => str f.1 ++ [UInt8.ofNat f.2]).flatten).length := by
          rw [subSize_eq _ _ (by rw [sizeofEncodedBuffer]; omega), sizeofEncodedBuffer, hn]
          omega
        split
        · rename_i e he; rw [hd] at he; simp at he
        · rename_i filter cur1 he
          rw [hd] at he
          simp only [Except.ok.injEq, Prod.mk.injEq] at he
          obtain ⟨rfl, rfl⟩ := he
          simp only [readU8]
          rw [if_neg (by simp [hq.1]), if_neg hq.2.1, ih _ (fun g hg => hf g (by simp [hg])) hs (by omega)]
          simp [hq.2.2]
    unfold subscribeDecode
    rw [headerDecode_frame _ _ _ (by decide) (by decide) (Or.inl rfl) hlen]
    have h2 : 2 ≤ (subscribeBody id fs).length := by simp [subscribeBody]
    have hrd : readBe16 (subscribeBody id fs) =
        some (id, (fs.map fun f => str f.1 ++ [UInt8.ofNat f.2]).flatten) := readBe16_be16 id _
    simp only [bind, Except.bind, hrd, orShort]
    rw [if_neg (by omega), hloop fs _ hf (by
      rw [subSize_eq _ _ h2]; simp only [subscribeBody, List.length_append, u16_length]; omega)
      (by rw [subSize_eq _ _ h2]; omega)]
    simp [hp]

example : subscribeDecode [0x82, 12, 0, 9, 0, 3, 97, 47, 98, 1, 0, 1, 35, 2] =
    .ok (subscribeAddTopic (subscribeAddTopic (subscribeInit 9) [97, 47, 98] 1) [35] 2, []) := by
  decide +kernel

/-- Building a SUBACK through `aws_mqtt_packet_suback_add_return_code`, stopping at the first
refused code. -/
def buildSuback (id : UInt16) (rcs : List UInt8) : Except Err SubackPacket :=
  rcs.foldlM subackAddReturnCode (subackInit id)

/-- SUBACK: exactly the legal return codes (0, 1, 2, 0x80) are accepted, and then it round-trips. -/
theorem C03_suback_roundtrip (id : UInt16) (rcs : List UInt8) (hlen : 2 + rcs.length < 2 ^ 28) :
    ((∃ p, buildSuback id rcs = .ok p) ↔ ∀ rc ∈ rcs, rc = 0 ∨ rc = 1 ∨ rc = 2 ∨ rc = 0x80) ∧
    ∀ p, buildSuback id rcs = .ok p →
      ∃ bytes, IsFrame 9 0 (u16 id ++ rcs) bytes ∧
        (∀ b : Buf, subackEncode b p = b.put bytes) ∧ subackDecode bytes = .ok (p, []) ∧
        p.returnCodes = rcs := by
  have hcheck : ∀ rc : UInt8, returnCodeCheck rc = true ↔ rc = 0 ∨ rc = 1 ∨ rc = 2 ∨ rc = 0x80 := by
    intro rc; simp only [returnCodeCheck, Bool.or_eq_true, decide_eq_true_eq]
    constructor
    · rintro (((h | h) | h) | h) <;> simp [h]
    · rintro (h | h | h | h) <;> simp [h]
  have hbuild : ∀ (rcs : List UInt8) (p0 p : SubackPacket), rcs.foldlM subackAddReturnCode p0 = .ok p ↔
      (∀ rc ∈ rcs, returnCodeCheck rc = true) ∧
      p = ⟨{ p0.header with remainingLength := p0.header.remainingLength + rcs.length }, p0.packetId,
        p0.returnCodes ++ rcs⟩ := by
    intro rcs
    induction rcs with
    | nil =>
      intro p0 p
      simp only [List.foldlM_nil, pure, Except.pure, Except.ok.injEq, List.not_mem_nil, false_implies,
        implies_true, true_and, List.length_nil, Nat.add_zero, List.append_nil]
      exact eq_comm
    | cons rc rcs ih =>
      intro p0 p
      rw [List.foldlM_cons]
      by_cases h : returnCodeCheck rc = true
      · simp only [subackAddReturnCode, h, Bool.not_true, Bool.false_eq_true, if_false, ok_bind, ih]
        simp [h, Nat.add_assoc, Nat.add_comm 1]
      · simp only [Bool.not_eq_true] at h
        simp [subackAddReturnCode, h, bind, Except.bind]
  have hok : ∀ p, buildSuback id rcs = .ok p → (∀ rc ∈ rcs, returnCodeCheck rc = true) ∧
      p = ⟨⟨9, (u16 id ++ rcs).length, UInt8.ofNat 0⟩, id, rcs⟩ := by
    intro p hp
    obtain ⟨h1, rfl⟩ := (hbuild rcs _ p).mp hp
    exact ⟨h1, by simp [subackInit, SUBACK]⟩
  constructor
  · constructor
    · rintro ⟨p, hp⟩ rc hrc
      exact (hcheck rc).mp ((hok p hp).1 rc hrc)
    · intro h
      exact ⟨_, (hbuild rcs _ _).mpr ⟨fun rc hrc => (hcheck rc).mpr (h rc hrc), rfl⟩⟩
  · intro p hp
    obtain ⟨hall, rfl⟩ := hok p hp
    refine ⟨frameBytes 9 0 (u16 id ++ rcs), isFrame_frameBytes _ _ _, ?_, ?_, rfl⟩
    · intro b
      have hloop : ∀ (rcs : List UInt8) (b : Buf), b.data.length ≤ b.cap →
          subackEncodeLoop b rcs = b.put rcs := by
        intro rcs
        induction rcs with
        | nil => intro b hb; rw [Buf.put_nil b hb]; rfl
        | cons rc rcs ih =>
          intro b hb
          rw [show rc :: rcs = [rc] ++ rcs from rfl, ← Buf.put_bind, List.singleton_append, subackEncodeLoop]
          cases hput : b.put [rc] with
          | error e => rfl
          | ok b' =>
            rw [ok_bind, ok_bind, ih]
            unfold Buf.put at hput; split at hput <;> simp at hput; subst hput; simpa using by assumption
      rw [← headerEncode_then b 9 0 _ (by decide) (by decide) (Or.inr rfl) _ rfl]
      unfold subackEncode
      simp only [← Buf.put_bind]
      rw [fixedHeaderEncode_eq _ _ (Or.inr rfl)]
      apply put_bind_congr
      intro b1 _ _ _
      rw [u16_eq]
      cases hput : b1.put (be16 id) with
      | error e => rfl
      | ok b' =>
        rw [ok_bind, ok_bind, hloop]
        unfold Buf.put at hput; split at hput <;> simp at hput; subst hput; simpa using by assumption
    · have hloop : ∀ rcs : List UInt8, (∀ rc ∈ rcs, returnCodeCheck rc = true) →
          subackDecodeLoop rcs.length rcs = .ok (rcs, []) := by
        intro rcs
        induction rcs with
        | nil => intro _; rfl
        | cons rc rcs ih =>
          intro h
          rw [List.length_cons, subackDecodeLoop]
          rw [ih (fun r hr => h r (by simp [hr]))]
          simp [h rc (by simp)]
      unfold subackDecode
      rw [headerDecode_frame _ _ _ (by decide) (by decide) (Or.inr rfl) (by simpa using hlen)]
      have hrd : readBe16 (u16 id ++ rcs) = some (id, rcs) := readBe16_be16 id rcs
      have hs : subSize (u16 id ++ rcs).length 2 = rcs.length := by
        rw [subSize_eq _ _ (by simp)]; simp
      simp only [bind, Except.bind, hrd, orShort, hs, hloop rcs hall]
      rfl

example : ∃ p, buildSuback 5 [1, 0x80, 0] = .ok p := ⟨_, rfl⟩

/-- UNSUBSCRIBE: any list of filters of at most 65535 bytes, for a buffer with enough room. -/
theorem C03_unsubscribe_roundtrip (id : UInt16) (fs : List Bytes)
    (hf : ∀ f ∈ fs, f.length ≤ 65535) (hlen : (unsubscribeBody id fs).length < 2 ^ 28) :
    let p := fs.foldl unsubscribeAddTopic (unsubscribeInit id)
    ∃ bytes, IsFrame 10 2 (unsubscribeBody id fs) bytes ∧
      (∀ b : Buf, b.data.length + bytes.length ≤ b.cap → unsubscribeEncode b p = b.put bytes) ∧
      unsubscribeDecode bytes = .ok (p, []) ∧ p.filters = fs := by
  intro p
  have hbuild : ∀ (fs : List Bytes) (p0 : UnsubscribePacket),
      fs.foldl unsubscribeAddTopic p0 =
        { header := { p0.header with
            remainingLength := p0.header.remainingLength + ((fs.map str).flatten).length }
          packetId := p0.packetId
          filters := p0.filters ++ fs } := by
    intro fs
    induction fs with
    | nil => intro p0; simp
    | cons f fs ih =>
      intro p0
      rw [List.foldl_cons, ih]
      simp [unsubscribeAddTopic, sizeofEncodedBuffer, Nat.add_assoc]
  have hp : p = ⟨⟨10, (unsubscribeBody id fs).length, UInt8.ofNat 2⟩, id, fs⟩ := by
    simp only [p, hbuild]
    simp [unsubscribeInit, unsubscribeBody, UNSUBSCRIBE, bit1Flags]
  refine ⟨frameBytes 10 2 (unsubscribeBody id fs), isFrame_frameBytes _ _ _, ?_, ?_, by rw [hp]⟩
  · intro b hroom
    have hloop : ∀ (fs : List Bytes) (b : Buf), (∀ f ∈ fs, f.length ≤ 65535) →
        b.data.length + ((fs.map str).flatten).length ≤ b.cap →
        (Except.ok (fs.foldl encodeBufferIgnoreResult b) : Except Err Buf) = b.put ((fs.map str).flatten) := by
      intro fs
      induction fs with
      | nil => intro b _ hr; rw [List.map_nil, List.flatten_nil, Buf.put_nil]; rfl; simpa using hr
      | cons f fs ih =>
        intro b hf hr
        have hf1 := hf f (by simp)
        simp only [List.map_cons, List.flatten_cons, List.length_append, str_length] at hr
        rw [List.foldl_cons, put_ignore b f hf1 (by rw [str_length]; omega),
          ih _ (fun g hg => hf g (by simp [hg])) (by simp only [List.length_append, str_length]; omega),
          List.map_cons, List.flatten_cons, ← Buf.put_bind b]
        have e2 : b.put (str f) = .ok { b with data := b.data ++ str f } := by
          rw [Buf.put, if_pos (by simp only [str_length]; omega)]
        rw [e2, ok_bind]
    simp only [frameBytes, List.length_append, List.length_cons] at hroom
    rw [← headerEncode_then b 10 2 _ (by decide) (by decide) (Or.inl rfl) _ rfl]
    unfold unsubscribeEncode
    simp only [hp]
    rw [fixedHeaderEncode_eq _ _ (Or.inl rfl)]
    apply put_bind_congr
    intro b1 hb1 hc1 _
    conv => rhs; rw [unsubscribeBody, ← Buf.put_bind]
    rw [u16_eq]
    apply put_bind_congr
    intro b2 hb2 hc2 _
    apply hloop fs b2 hf
    rw [hb2, hb1, hc2, hc1]
    have hl : (unsubscribeBody id fs).length = 2 + ((fs.map str).flatten).length := by
      simp only [unsubscribeBody, List.length_append, u16_length]
    simp only [List.length_cons, List.length_append, be16_length]
    omega
  · have hloop : ∀ (fs : List Bytes) (n : Nat), (∀ f ∈ fs, f.length ≤ 65535) →
        n = ((fs.map str).flatten).length → n < 2 ^ 28 →
        unsubscribeDecodeLoop n ((fs.map str).flatten) = .ok (fs, []) := by
      intro fs
      induction fs with
      | nil => intro n _ hn _; rw [unsubscribeDecodeLoop]; simp [hn]
      | cons f fs ih =>
        intro n hf hn hlt
        have hf1 := hf f (by simp)
        simp only [List.map_cons, List.flatten_cons, List.length_append, str_length] at hn
        rw [unsubscribeDecodeLoop, if_neg (by omega)]
        have hd : decodeBuffer ((List.map str (f :: fs)).flatten) = .ok (f, (fs.map str).flatten) := by
          simp only [List.map_cons, List.flatten_cons]
          rw [decodeBuffer_str _ _ hf1]
        have hs : subSize n (sizeofEncodedBuffer f) = ((fs.map str).flatten).length := by
          rw [subSize_eq _ _ (by rw [sizeofEncodedBuffer]; omega), sizeofEncodedBuffer, hn]
          omega
        split
        · rename_i e he; rw [hd] at he; simp at he
        · rename_i filter cur1 he
          rw [hd] at he
          simp only [Except.ok.injEq, Prod.mk.injEq] at he
          obtain ⟨rfl, rfl⟩ := he
          rw [ih _ (fun g hg => hf g (by simp [hg])) hs (by omega)]
    unfold unsubscribeDecode
    rw [headerDecode_frame _ _ _ (by decide) (by decide) (Or.inl rfl) hlen]
    have h2 : 2 ≤ (unsubscribeBody id fs).length := by simp [unsubscribeBody]
    have hrd : readBe16 (unsubscribeBody id fs) = some (id, (fs.map str).flatten) := readBe16_be16 id _
    simp only [bind, Except.bind, hrd, orShort]
    rw [if_neg (by omega), hloop fs _ hf (by
      rw [subSize_eq _ _ h2]; simp only [unsubscribeBody, List.length_append, u16_length]; omega)
      (by rw [subSize_eq _ _ h2]; omega)]
    simp [hp]

example : unsubscribeDecode [0xA2, 7, 0, 9, 0, 3, 97, 47, 98] =
    .ok (unsubscribeAddTopic (unsubscribeInit 9) [97, 47, 98], []) := by decide +kernel

end Mqtt.Props
