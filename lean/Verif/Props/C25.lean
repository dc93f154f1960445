import Verif.Props.C23

/-!
C25: packets that break the grammar of chapter 3 of the MQTT 5 standard: wrong fixed header flags, or
lengths inside the packet that do not add up to its remaining length.
-/
namespace Mqtt.Props.V5
open Mqtt Mqtt.V5 Mqtt.Spec5

variable {σ : Type} (handle : OnPacket σ)

/-- C25, one packet: except for the flags and the property length of SUBACK and UNSUBACK, and a PUBLISH
with QoS 3, what the grammar rejects is rejected. -/
theorem C25_packet_partial (res : Aliases) (first : UInt8) (body : Bytes)
    (hack : first.toNat / 16 = 9 ∨ first.toNat / 16 = 11 → first.toNat % 16 = 0 ∧ SectionFits body)
    (hpub : first.toNat / 16 = 3 → first.toNat % 16 / 2 % 4 ≠ 3)
    (h : serverDispatch (first.toNat / 16) (first.toNat % 16) body = none) :
    decodePacket res first body.length body = none := by
  rw [decode_eq res first body hack hpub, h]; rfl

/-- What is handed over has only properties its packet type may have. -/
theorem C25_properties (res : Aliases) (first : UInt8) (body : Bytes) (x : Received × Aliases) (p : ServerPacket)
    (hp : serverDispatch (first.toNat / 16) (first.toNat % 16) body = some p)
    (h : decodePacket res first body.length body = some x) :
    match p with
    | .connack _ _ ps => ∀ q ∈ ps, q.id ∈ connackIds
    | .publish p => ∀ q ∈ p.props, q.id ∈ publishIds
    | .puback _ _ ps => ∀ q ∈ ps, q.id ∈ ackIds
    | .suback _ ps _ => ∀ q ∈ ps, q.id ∈ ackIds
    | .unsuback _ ps _ => ∀ q ∈ ps, q.id ∈ ackIds
    | .pingresp => True
    | .disconnect _ ps => ∀ q ∈ ps, q.id ∈ disconnectIds := by
  obtain ⟨h1, h2, _⟩ := dispatch_plain hp
  rw [decode_eq res first body h1 h2, hp, Option.bind_some] at h
  cases p with
  | connack present reason ps =>
    simp only [finish, Option.map_eq_some_iff] at h
    obtain ⟨v, hv, _⟩ := h
    exact fold_ids connack_ids ps _ v hv
  | publish p =>
    simp only [finish, Option.map_eq_some_iff, Option.bind_eq_some_iff] at h
    obtain ⟨_, ⟨v, hv, _⟩, _⟩ := h
    exact fold_ids publish_ids p.props _ v hv
  | puback id reason ps =>
    simp only [finish, Option.map_eq_some_iff] at h
    obtain ⟨v, hv, _⟩ := h
    exact fold_ids puback_ids ps _ v hv
  | suback id ps codes =>
    simp only [finish, Option.map_eq_some_iff] at h
    obtain ⟨v, hv, _⟩ := h
    exact fold_ids suback_ids ps _ v hv
  | unsuback id ps codes =>
    simp only [finish, Option.map_eq_some_iff] at h
    obtain ⟨v, hv, _⟩ := h
    exact fold_ids suback_ids ps _ v hv
  | pingresp => trivial
  | disconnect reason ps =>
    simp only [finish, Option.map_eq_some_iff] at h
    obtain ⟨v, hv, _⟩ := h
    exact fold_ids disconnect_ids ps _ v hv

/-- C25, the stream: after anything the decoder took, a complete packet that breaks the grammar ends the
stream with an error, in whatever chunks it arrives and whatever follows; nothing of it is handed over. -/
theorem C25_stream_partial (before bad after : Bytes) (chunks : List Bytes) (w w' : World σ)
    (hbefore : feed handle Decoder.init w [before] = (true, Decoder.init, w'))
    (type flags : Nat) (body : Bytes) (hf : frame bad = some (type, flags, body))
    (hack : type = 9 ∨ type = 11 → flags = 0 ∧ SectionFits body)
    (hpub : type = 3 → flags / 2 % 4 ≠ 3)
    (hbad : serverPacket bad = none) (hs : chunks.flatten = before ++ (bad ++ after)) :
    (feed handle Decoder.init w chunks).1 = false ∧ (feed handle Decoder.init w chunks).2.2 = w' ∧
    (feed handle Decoder.init w chunks).2.1.state = .fatalError := by
  have hp : parse handle w before = .pending w' [] := by
    have := feed_init handle [before] w
    simp only [List.flatten_cons, List.flatten_nil, List.append_nil] at this
    cases hpb : parse handle w before with
    | error w2 =>
      simp only [hpb] at this
      obtain ⟨d', h1, _⟩ := this
      rw [hbefore] at h1; simp at h1
    | pending w2 p2 =>
      simp only [hpb, hbefore, Prod.mk.injEq, true_and] at this
      obtain ⟨h1, rfl⟩ := this
      cases p2 with
      | nil => rfl
      | cons b q =>
        simp only [ofPending, Decoder.init] at h1
        split at h1 <;> simp at h1
  unfold serverPacket at hbad
  simp only [hf, bind, Option.bind_some] at hbad
  obtain ⟨first, r, rfl, rfl, rfl, hv⟩ := frame_parts hf
  have hall : parse handle w (before ++ ((first :: r) ++ after)) = .error w' := by
    rw [parse_append, hp]
    simp only [List.nil_append]
    cases hd : decodable (typeOf first) with
    | false => rw [List.cons_append]; exact parse_type handle w' first _ hd
    | true =>
      rw [parse_frame handle hv hd]
      have : deliverPacket handle w' first body.length body = (w', false) := by
        unfold deliverPacket
        rw [C25_packet_partial w'.resolver first body hack hpub hbad]
      rw [this]; rfl
  have h1 := feed_init handle chunks w
  rw [hs, hall] at h1
  obtain ⟨d', h1, h2⟩ := h1
  rw [h1]; exact ⟨rfl, rfl, h2⟩

/-- A CONNACK with reserved flags, after a good PINGRESP. -/
example : feed recorder Decoder.init ⟨[], none⟩ [[0xD0, 0]] = (true, Decoder.init, ⟨[.pingresp], none⟩) ∧
    frame [0x21, 3, 0, 0, 0] = some (2, 1, [0, 0, 0]) ∧ serverPacket [0x21, 3, 0, 0, 0] = none := by
  decide +kernel

/-- A PUBACK whose property length is one too many. -/
example : frame [0x40, 4, 0, 1, 0, 1] = some (4, 0, [0, 1, 0, 1]) ∧ serverPacket [0x40, 4, 0, 1, 0, 1] = none := by
  decide +kernel

/-! ### What the code accepts in spite of the standard -/

/-- SUBACK and UNSUBACK with any flags. -/
theorem C25_violated_flags :
    serverPacket [0x9F, 4, 0, 1, 0, 0] = none ∧
    feed recorder Decoder.init ⟨[], none⟩ [[0x9F, 4, 0, 1, 0, 0]] =
      (true, Decoder.init, ⟨[.suback { packetId := 1, reasonCodes := [0] }], none⟩) ∧
    serverPacket [0xB7, 4, 0, 1, 0, 17] = none ∧
    feed recorder Decoder.init ⟨[], none⟩ [[0xB7, 4, 0, 1, 0, 17]] =
      (true, Decoder.init, ⟨[.unsuback { packetId := 1, reasonCodes := [17] }], none⟩) := by
  decide +kernel

/-- A property length that runs past the end of the packet: the bytes are taken for reason codes. -/
theorem C25_violated_length :
    serverPacket [0x90, 5, 0, 1, 9, 0x1F, 0] = none ∧
    feed recorder Decoder.init ⟨[], none⟩ [[0x90, 5, 0, 1, 9, 0x1F, 0]] =
      (true, Decoder.init, ⟨[.suback { packetId := 1, reasonCodes := [0x1F, 0] }], none⟩) ∧
    serverPacket [0xB0, 5, 0, 1, 9, 0x1F, 0] = none ∧
    feed recorder Decoder.init ⟨[], none⟩ [[0xB0, 5, 0, 1, 9, 0x1F, 0]] =
      (true, Decoder.init, ⟨[.unsuback { packetId := 1, reasonCodes := [0x1F, 0] }], none⟩) := by
  decide +kernel

/-- PUBLISH with both QoS bits set. -/
theorem C25_violated_qos :
    serverPacket [0x36, 6, 0, 1, 97, 0, 1, 0] = none ∧
    feed recorder Decoder.init ⟨[], none⟩ [[0x36, 6, 0, 1, 97, 0, 1, 0]] =
      (true, Decoder.init, ⟨[.publish { packetId := 1, qos := 3, topic := [97] }], none⟩) := by
  decide +kernel

/-- How far the exceptions for SUBACK and UNSUBACK reach: a property length within the packet is obeyed, the
flags are never looked at. -/
theorem C25_acks_partial (res : Aliases) (first : UInt8) (body : Bytes)
    (ht : first.toNat / 16 = 9 ∨ first.toNat / 16 = 11) (hs : SectionFits body)
    (h : serverDispatch (first.toNat / 16) 0 body = none) : decodePacket res first body.length body = none := by
  have hpl : decodePacket res first body.length body =
      decodePacket res (UInt8.ofNat (first.toNat / 16 * 16)) body.length body := by
    rcases ht with ht | ht <;> simp [decodePacket, first_type, ht]
  have h16 : (UInt8.ofNat (first.toNat / 16 * 16)).toNat = first.toNat / 16 * 16 := by
    rcases ht with ht | ht <;> rw [ht] <;> rfl
  rw [hpl]
  have e1 : (UInt8.ofNat (first.toNat / 16 * 16)).toNat / 16 = first.toNat / 16 := by rw [h16]; omega
  have e2 : (UInt8.ofNat (first.toNat / 16 * 16)).toNat % 16 = 0 := by rw [h16]; omega
  exact C25_packet_partial res _ body (fun _ => ⟨e2, hs⟩) (fun h3 => by omega) (by rw [e1, e2]; exact h)

end Mqtt.Props.V5
