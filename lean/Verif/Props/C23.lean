import Verif.Props.C24
import Verif.Lemmas.Server5

/-!
C23: packets from the server, written as chapter 3 of the MQTT 5 standard says, reach the receiver with
exactly their fields.
-/
namespace Mqtt.Props.V5
open Mqtt Mqtt.V5 Mqtt.Spec5

variable {σ : Type} (handle : OnPacket σ)

theorem num_last {id : Nat} {ids : List Nat} {ps : List Property} (h : PropsOk ids ps) (h1 : id ≠ 38) (h2 : id ≠ 11) :
    (lastOf id ps).map numOf = num id ps := by
  rw [lastOf_once (h.once id h1 h2)]; rfl

theorem str_last {id : Nat} {ids : List Nat} {ps : List Property} (h : PropsOk ids ps) (h1 : id ≠ 38) (h2 : id ≠ 11) :
    (lastOf id ps).map textOf = str id ps := by
  rw [lastOf_once (h.once id h1 h2)]; rfl

theorem flag_last {id : Nat} {ids : List Nat} {ps : List Property} (h : PropsOk ids ps)
    (hm : id ∈ [37, 40, 41, 42]) : ((lastOf id ps).map fun v => numOf v != 0) = flag id ps := by
  have h12 : id ≠ 38 ∧ id ≠ 11 := by
    constructor <;> (rintro rfl; simp at hm)
  exact flag_once (h.once id h12.1 h12.2) (fun p hp he => h.flags p hp (he ▸ hm))

theorem alias_eq (res : Aliases) (p : Publish) :
    (applyAlias res { publishOf (publishStart p) p.props with
        payload := p.payload, topicAlias := num 35 p.props }) =
      (topicOf res p).map fun x => ({ publishOf (publishStart p) p.props with
        payload := p.payload, topicAlias := num 35 p.props, topic := x.1 }, x.2) := by
  unfold applyAlias topicOf
  simp only
  cases num 35 p.props with
  | none => rfl
  | some a =>
    simp only
    cases res with
    | none => rfl
    | some table =>
      simp only [publishOf, publishStart, TopicAlias.Inbound.register, TopicAlias.Inbound.resolve]
      by_cases h0 : a = 0
      · simp [h0]
      · by_cases h1 : table.length < a
        · have h1' : a > table.length := h1
          by_cases ht : p.topic = [] <;> simp [h0, h1', ht]
        · have h1' : ¬ a > table.length := h1
          by_cases ht : p.topic = []
          · simp only [h0, h1, ht, if_false, or_self, List.length_nil, Nat.lt_irrefl, gt_iff_lt]
            cases hg : table[a - 1]? with
            | none => simp
            | some o => cases o <;> simp
          · have hl : p.topic.length > 0 := List.length_pos_iff.2 ht
            simp [h0, h1', hl, ht]

/-- Applying the properties gives the fields of the standard. -/
theorem finish_eq (res : Aliases) (p : ServerPacket) (hok : PacketOk p) :
    finish res p = (resolved res p).map fun x => (expected x.1, x.2) := by
  cases p with
  | connack present reason ps =>
    have hok : PropsOk connackIds ps := hok
    simp only [finish, resolved, fold_connack present reason ps hok.allowed, Option.map_some, expected, connackOf]
    rw [num_last hok (by decide) (by decide), num_last hok (by decide) (by decide),
      num_last hok (by decide) (by decide), num_last hok (by decide) (by decide),
      num_last hok (by decide) (by decide), num_last hok (by decide) (by decide),
      flag_last hok (by decide), flag_last hok (by decide), flag_last hok (by decide), flag_last hok (by decide),
      str_last hok (by decide) (by decide), str_last hok (by decide) (by decide),
      str_last hok (by decide) (by decide), str_last hok (by decide) (by decide),
      str_last hok (by decide) (by decide), str_last hok (by decide) (by decide)]
  | publish p =>
    have hok : PropsOk publishIds p.props := hok
    have e := alias_eq res p
    have h35 := num_last hok (id := 35) (by decide) (by decide)
    simp only [finish, resolved]
    rw [fold_publish _ _ hok.allowed rfl, Option.bind_some]
    have e1 : ({ publishOf (publishStart p) p.props with payload := p.payload } : PublishView) =
        { publishOf (publishStart p) p.props with payload := p.payload, topicAlias := num 35 p.props } := by
      rw [← h35]; rfl
    rw [e1, e]
    simp only [Option.map_map]
    congr 1
    funext x
    simp only [Function.comp_apply, expected, publishOf, publishStart]
    rw [num_last hok (by decide) (by decide), num_last hok (by decide) (by decide),
      str_last hok (by decide) (by decide), str_last hok (by decide) (by decide),
      str_last hok (by decide) (by decide)]
  | puback id reason ps =>
    have hok : PropsOk ackIds ps := hok
    simp only [finish, resolved, fold_puback id reason ps hok.allowed, Option.map_some, expected, pubackOf]
    rw [str_last hok (by decide) (by decide)]
  | suback id ps codes =>
    have hok : PropsOk ackIds ps := hok
    simp only [finish, resolved, fold_suback id ps hok.allowed, Option.map_some, expected, subackOf]
    rw [str_last hok (by decide) (by decide)]
  | unsuback id ps codes =>
    have hok : PropsOk ackIds ps := hok
    simp only [finish, resolved, fold_suback id ps hok.allowed, Option.map_some, expected, subackOf]
    rw [str_last hok (by decide) (by decide)]
  | pingresp => rfl
  | disconnect reason ps =>
    have hok : PropsOk disconnectIds ps := hok
    simp only [finish, resolved, fold_disconnect reason ps hok.allowed, Option.map_some, expected, disconnectOf]
    rw [num_last hok (by decide) (by decide), str_last hok (by decide) (by decide),
      str_last hok (by decide) (by decide)]

theorem ackList_fits {make : Nat → List Property → List Nat → ServerPacket} {body : Bytes} {p : ServerPacket}
    (h : ackList make body = some p) : SectionFits body := by
  intro id r n r2 h1 h2
  unfold ackList properties at h
  simp only [h1, h2, bind, Option.bind_some] at h
  by_cases hn : n ≤ r2.length
  · exact hn
  · simp [raw, hn] at h

theorem publish_qos {flags : Nat} {body : Bytes} {p : Packet} (h : publish flags body = some p) :
    flags / 2 % 4 ≠ 3 := by
  intro hq
  unfold publish at h
  simp only [hq, if_true, bind, Option.bind_eq_some_iff] at h
  obtain ⟨_, _, _, _, _, _, h⟩ := h
  simp at h

theorem dispatch_plain {first : UInt8} {body : Bytes} {p : ServerPacket}
    (h : serverDispatch (first.toNat / 16) (first.toNat % 16) body = some p) :
    (first.toNat / 16 = 9 ∨ first.toNat / 16 = 11 → first.toNat % 16 = 0 ∧ SectionFits body) ∧
    (first.toNat / 16 = 3 → first.toNat % 16 / 2 % 4 ≠ 3) ∧ decodable (typeOf first) = true := by
  rw [first_type]
  unfold serverDispatch at h
  by_cases h3 : first.toNat / 16 = 3
  · rw [if_pos h3] at h
    refine ⟨by omega, fun _ => ?_, by rw [h3]; rfl⟩
    cases hp : publish (first.toNat % 16) body with
    | none => simp [hp] at h
    | some q => exact publish_qos hp
  · rw [if_neg h3] at h
    by_cases h0 : first.toNat % 16 = 0
    · rw [if_neg (by simp [h0])] at h
      refine ⟨?_, fun h => absurd h h3, ?_⟩
      · intro h9
        refine ⟨h0, ?_⟩
        rcases h9 with h9 | h9 <;> rw [h9] at h <;> exact ackList_fits h
      · revert h
        split <;> intro h <;> simp_all [decodable]
    · rw [if_pos h0] at h; simp at h

/-- C23, one packet: whatever the server sends according to the standard is handed over with exactly its
fields, and with the topic its alias stands for. -/
theorem C23_packet (res : Aliases) (first : UInt8) (body : Bytes) (p : ServerPacket)
    (h : serverDispatch (first.toNat / 16) (first.toNat % 16) body = some p) (hok : PacketOk p) :
    decodePacket res first body.length body = (resolved res p).map fun x => (expected x.1, x.2) := by
  obtain ⟨h1, h2, _⟩ := dispatch_plain h
  rw [decode_eq res first body h1 h2, h, Option.bind_some, finish_eq res p hok]

/-- The receiver is given the packets one after the other, until it or a bad alias stops it. -/
def run : World σ → List ServerPacket → World σ × Bool
  | w, [] => (w, true)
  | w, p :: ps =>
    match resolved w.resolver p with
    | none => (w, false)
    | some (p, aliases) =>
      if (handle { w with resolver := aliases } (expected p)).2 then
        run (handle { w with resolver := aliases } (expected p)).1 ps
      else ((handle { w with resolver := aliases } (expected p)).1, false)

theorem frame_parts {f body : Bytes} {type flags : Nat} (h : frame f = some (type, flags, body)) :
    ∃ first r, f = first :: r ∧ type = first.toNat / 16 ∧ flags = first.toNat % 16 ∧
      decodeVli r = .ok body.length body := by
  unfold frame at h
  cases f with
  | nil => simp [byte] at h
  | cons first r =>
    simp only [byte_cons, bind, Option.bind_some] at h
    cases hv : vbi r with
    | none => simp [hv] at h
    | some x =>
      simp only [hv, Option.bind_some] at h
      split at h
      · rename_i hn
        simp only [Option.some.injEq, Prod.mk.injEq] at h
        obtain ⟨h1, h2, h3⟩ := h
        refine ⟨first, r, rfl, h1.symm, h2.symm, ?_⟩
        rw [← getVli_eq] at hv
        unfold getVli at hv
        cases hd : decodeVli r with
        | more => simp [hd, VliResult.toOption] at hv
        | error => simp [hd, VliResult.toOption] at hv
        | ok n q =>
          simp only [hd, VliResult.toOption, Option.some.injEq] at hv
          rw [← hv] at hn h3
          simp only at hn h3
          rw [hn, h3]
      · simp at h

/-- A whole packet at the front of the stream. -/
theorem parse_frame {first : UInt8} {r body : Bytes} (hv : decodeVli r = .ok body.length body)
    (hd : decodable (typeOf first) = true) (w : World σ) (rest : Bytes) :
    parse handle w ((first :: r) ++ rest) =
      if (deliverPacket handle w first body.length body).2 then
        parse handle (deliverPacket handle w first body.length body).1 rest
      else .error (deliverPacket handle w first body.length body).1 := by
  rw [List.cons_append, parse_ok handle w hd (decodeVli_append hv rest), if_neg (by simp)]
  simp

/-- C23, the stream: any number of packets, in any chunks. -/
theorem C23_stream (packets : List (Bytes × ServerPacket)) (chunks : List Bytes) (w : World σ)
    (h : ∀ x ∈ packets, serverPacket x.1 = some x.2 ∧ PacketOk x.2)
    (hs : chunks.flatten = (packets.map Prod.fst).flatten) :
    (feed handle Decoder.init w chunks).1 = (run handle w (packets.map Prod.snd)).2 ∧
    (feed handle Decoder.init w chunks).2.2 = (run handle w (packets.map Prod.snd)).1 := by
  have key : ∀ (packets : List (Bytes × ServerPacket)) (w : World σ),
      (∀ x ∈ packets, serverPacket x.1 = some x.2 ∧ PacketOk x.2) →
      parse handle w (packets.map Prod.fst).flatten =
        if (run handle w (packets.map Prod.snd)).2 then .pending (run handle w (packets.map Prod.snd)).1 []
        else .error (run handle w (packets.map Prod.snd)).1 := by
    intro packets
    induction packets with
    | nil => intro w _; simp [parse_nil, run]
    | cons x xs ih =>
      intro w hx
      obtain ⟨hp, hok⟩ := hx x (by simp)
      unfold serverPacket at hp
      cases hf : frame x.1 with
      | none => simp [hf] at hp
      | some y =>
        obtain ⟨type, flags, body⟩ := y
        simp only [hf, bind, Option.bind_some] at hp
        obtain ⟨first, r, hfr, rfl, rfl, hv⟩ := frame_parts hf
        have hd := (dispatch_plain hp).2.2
        simp only [List.map_cons, List.flatten_cons]
        rw [hfr, parse_frame handle hv hd w]
        have hdel : deliverPacket handle w first body.length body =
            match resolved w.resolver x.2 with
            | none => (w, false)
            | some (p, aliases) => handle { w with resolver := aliases } (expected p) := by
          unfold deliverPacket
          rw [C23_packet w.resolver first body x.2 hp hok]
          cases resolved w.resolver x.2 <;> rfl
        rw [hdel, run]
        cases resolved w.resolver x.2 with
        | none => simp
        | some z =>
          simp only
          cases hh : (handle { w with resolver := z.2 } (expected z.1)).2 with
          | false => simp
          | true =>
            simp only [if_true]
            exact ih _ (fun y hy => hx y (by simp [hy]))
  have h1 := feed_init handle chunks w
  rw [hs, key packets w h] at h1
  cases hr : (run handle w (packets.map Prod.snd)).2 with
  | true =>
    simp only [hr, if_true] at h1
    rw [h1]; exact ⟨rfl, rfl⟩
  | false =>
    simp only [hr, Bool.false_eq_true, if_false] at h1
    obtain ⟨d', h1, _⟩ := h1
    rw [h1]; exact ⟨rfl, rfl⟩

/-- A CONNACK with two user properties around a receive maximum of 10, then a PUBLISH with QoS 1. -/
def examplePackets : List (Bytes × ServerPacket) :=
  [([0x20, 22, 1, 0, 19, 38, 0, 1, 97, 0, 1, 98, 33, 0, 10, 38, 0, 2, 97, 97, 0, 0, 37, 1],
    .connack true 0 [⟨38, .pair [97] [98]⟩, ⟨33, .num 10⟩, ⟨38, .pair [97, 97] []⟩, ⟨37, .num 1⟩]),
   ([0x3A, 8, 0, 1, 116, 0, 7, 0, 104, 105],
    .publish { dup := true, qos := 1, retain := false, topic := [116], packetId := some 7, props := [],
               payload := [104, 105] })]

example : (∀ x ∈ examplePackets, serverPacket x.1 = some x.2 ∧ PacketOk x.2) ∧
    (run recorder ⟨[], none⟩ (examplePackets.map Prod.snd)).1.receiver =
      [.connack { sessionPresent := true, receiveMaximum := some 10, retainAvailable := some true,
                  userProperties := [⟨[97], [98]⟩, ⟨[97, 97], []⟩] },
       .publish { payload := [104, 105], packetId := 7, qos := 1, duplicate := true, topic := [116] }] := by
  refine ⟨?_, by decide +kernel⟩
  intro x hx
  simp only [examplePackets, List.mem_cons, List.not_mem_nil, or_false] at hx
  rcases hx with rfl | rfl
  · refine ⟨by decide +kernel, ⟨by decide, ?_, by decide⟩⟩
    intro id h1 h2
    have e : ∀ (id : Nat), id ≠ 38 → (List.filter (fun p => p.id == id)
        [(⟨38, .pair [97] [98]⟩ : Property), ⟨33, .num 10⟩, ⟨38, .pair [97, 97] []⟩, ⟨37, .num 1⟩]).length ≤ 1 := by
      intro id h
      by_cases h33 : id = 33
      · subst h33; decide
      · by_cases h37 : id = 37
        · subst h37; decide
        · simp [Ne.symm h, Ne.symm h33, Ne.symm h37]
    exact e id h1
  · exact ⟨by decide +kernel, ⟨by decide, by intro id _ _; simp, by decide⟩⟩

end Mqtt.Props.V5
