import Verif.Vli5
import Verif.Views5
import Verif.TopicAlias

/-!
Model of /repo/source/v5/mqtt5_decoder.c: the decoder of the packets a server sends.

Reading a field is a function from the cursor to the value and the advanced cursor; `none` is the jump to
the error label. A loop over a cursor takes the cursor's length as a bound on the number of rounds; every
round consumes the property type, so the bound is never reached (`propertyLoop_bound`). Simplification:
allocation never fails.
-/
namespace Mqtt.V5
open Mqtt.TopicAlias

/-! ### Macros of include/aws/mqtt/private/v5/mqtt5_decoder.h -/

/-- `AWS_MQTT5_DECODE_U8` (199-206). -/
def getU8 (cur : Bytes) : Option (Nat × Bytes) := (readU8 cur).map fun x => (x.1.toNat, x.2)

/-- `AWS_MQTT5_DECODE_U8` into a `bool` (`retain_available` and the like): any value but 0 is true. -/
def getBool (cur : Bytes) : Option (Bool × Bytes) := (readU8 cur).map fun x => (x.1.toNat != 0, x.2)

/-- `AWS_MQTT5_DECODE_U16` (212-219). -/
def getU16 (cur : Bytes) : Option (Nat × Bytes) := (readBe16 cur).map fun x => (x.1.toNat, x.2)

/-- `AWS_MQTT5_DECODE_U32` (236-239). -/
def getU32 (cur : Bytes) : Option (Nat × Bytes) := (readBe32 cur).map fun x => (x.1.toNat, x.2)

def VliResult.toOption : VliResult → Option (Nat × Bytes)
  | .ok n r => some (n, r)
  | .more => none
  | .error => none

/-- `AWS_MQTT5_DECODE_VLI` (245-248): running out of data is a failure too. -/
def getVli (cur : Bytes) : Option (Nat × Bytes) := (decodeVli cur).toOption

/-- `AWS_MQTT5_DECODE_LENGTH_PREFIXED_CURSOR` (251-257) with `AWS_MQTT5_DECODE_U16_PREFIX` (225-230). -/
def getPrefixed (cur : Bytes) : Option (Bytes × Bytes) :=
  match getU16 cur with
  | none => none
  | some (n, r) => if r.length < n then none else some (advance n r)

/-- `aws_mqtt5_decode_user_property` (mqtt5_decoder.c:153-170). -/
def getUserProperty (cur : Bytes) : Option (UserProperty × Bytes) :=
  match getPrefixed cur with
  | none => none
  | some (name, r) =>
    match getPrefixed r with
    | none => none
    | some (value, r) => some (⟨name, value⟩, r)

/-- The value read goes into the view, the cursor stays. -/
def into {α β : Type} (x : Option (α × Bytes)) (f : α → β) : Option (β × Bytes) := x.map fun y => (f y.1, y.2)

/-! ### Properties -/

/-- `s_read_connack_property` (173-292). -/
def connackProperty (v : ConnackView) (cur : Bytes) : Option (ConnackView × Bytes) :=
  match cur with
  | [] => none
  | t :: r =>
    match t.toNat with
    | 17 => into (getU32 r) fun x => { v with sessionExpiry := some x }
    | 33 => into (getU16 r) fun x => { v with receiveMaximum := some x }
    | 36 => into (getU8 r) fun x => { v with maximumQos := some x }
    | 37 => into (getBool r) fun x => { v with retainAvailable := some x }
    | 39 => into (getU32 r) fun x => { v with maximumPacketSize := some x }
    | 18 => into (getPrefixed r) fun x => { v with assignedClientId := some x }
    | 34 => into (getU16 r) fun x => { v with topicAliasMaximum := some x }
    | 31 => into (getPrefixed r) fun x => { v with reasonString := some x }
    | 40 => into (getBool r) fun x => { v with wildcardSubscriptions := some x }
    | 41 => into (getBool r) fun x => { v with subscriptionIdentifiers := some x }
    | 42 => into (getBool r) fun x => { v with sharedSubscriptions := some x }
    | 19 => into (getU16 r) fun x => { v with serverKeepAlive := some x }
    | 26 => into (getPrefixed r) fun x => { v with responseInformation := some x }
    | 28 => into (getPrefixed r) fun x => { v with serverReference := some x }
    | 21 => into (getPrefixed r) fun x => { v with authMethod := some x }
    | 22 => into (getPrefixed r) fun x => { v with authData := some x }
    | 38 => into (getUserProperty r) fun x => { v with userProperties := v.userProperties ++ [x] }
    | _ => none

/-- `s_read_publish_property` (366-435). -/
def publishProperty (v : PublishView) (cur : Bytes) : Option (PublishView × Bytes) :=
  match cur with
  | [] => none
  | t :: r =>
    match t.toNat with
    | 1 => into (getU8 r) fun x => { v with payloadFormat := some x }
    | 2 => into (getU32 r) fun x => { v with messageExpiry := some x }
    | 35 => into (getU16 r) fun x => { v with topicAlias := some x }
    | 8 => into (getPrefixed r) fun x => { v with responseTopic := some x }
    | 9 => into (getPrefixed r) fun x => { v with correlationData := some x }
    | 38 => into (getUserProperty r) fun x => { v with userProperties := v.userProperties ++ [x] }
    | 11 => into (getVli r) fun x => { v with subscriptionIdentifiers := v.subscriptionIdentifiers ++ [x] }
    | 3 => into (getPrefixed r) fun x => { v with contentType := some x }
    | _ => none

/-- `s_read_puback_property` (563-599). -/
def pubackProperty (v : PubackView) (cur : Bytes) : Option (PubackView × Bytes) :=
  match cur with
  | [] => none
  | t :: r =>
    match t.toNat with
    | 31 => into (getPrefixed r) fun x => { v with reasonString := some x }
    | 38 => into (getUserProperty r) fun x => { v with userProperties := v.userProperties ++ [x] }
    | _ => none

/-- `s_read_suback_property` (672-708) and `s_read_unsuback_property` (771-807). -/
def subackProperty (v : SubackView) (cur : Bytes) : Option (SubackView × Bytes) :=
  match cur with
  | [] => none
  | t :: r =>
    match t.toNat with
    | 31 => into (getPrefixed r) fun x => { v with reasonString := some x }
    | 38 => into (getUserProperty r) fun x => { v with userProperties := v.userProperties ++ [x] }
    | _ => none

/-- `s_read_disconnect_property` (888-937). -/
def disconnectProperty (v : DisconnectView) (cur : Bytes) : Option (DisconnectView × Bytes) :=
  match cur with
  | [] => none
  | t :: r =>
    match t.toNat with
    | 17 => into (getU32 r) fun x => { v with sessionExpiry := some x }
    | 28 => into (getPrefixed r) fun x => { v with serverReference := some x }
    | 31 => into (getPrefixed r) fun x => { v with reasonString := some x }
    | 38 => into (getUserProperty r) fun x => { v with userProperties := v.userProperties ++ [x] }
    | _ => none

/-- `while (cursor.len > 0) { if (read(&storage, &cursor)) goto done; }`; the first number bounds the rounds. -/
def propertyLoop {α : Type} (read : α → Bytes → Option (α × Bytes)) : Nat → α → Bytes → Option α
  | _, v, [] => some v
  | 0, _, _ :: _ => none
  | n + 1, v, b :: bs =>
    match read v (b :: bs) with
    | none => none
    | some (v, r) => propertyLoop read n v r

def readProperties {α : Type} (read : α → Bytes → Option (α × Bytes)) (v : α) (cur : Bytes) : Option α :=
  propertyLoop read cur.length v cur

/-- A property section that has to fill the rest of the packet (332-342 and alike). -/
def lastProperties {α : Type} (read : α → Bytes → Option (α × Bytes)) (v : α) (cur : Bytes) : Option α :=
  match getVli cur with
  | none => none
  | some (n, r) => if n ≠ r.length then none else readProperties read v r

/-! ### Packets -/

/-- What `on_packet_received` is called with. -/
inductive Received where
  | connack (v : ConnackView)
  | publish (v : PublishView)
  | puback (v : PubackView)
  | suback (v : SubackView)
  | unsuback (v : SubackView)
  | pingresp
  | disconnect (v : DisconnectView)
deriving DecidableEq, Repr

/-- `s_aws_mqtt5_decoder_decode_connack` (295-363). -/
def decodeConnack (first : UInt8) (remaining : Nat) (cur : Bytes) : Option ConnackView :=
  if first &&& 0x0F ≠ 0 then none                                                   -- 305
  else if remaining ≠ cur.length then none                                          -- 311
  else match getU8 cur with
    | none => none
    | some (flags, cur) =>
      if UInt8.ofNat flags &&& 0xFE ≠ 0 then none                                   -- 319
      else match getU8 cur with
        | none => none
        | some (reason, cur) =>
          lastProperties connackProperty
            { sessionPresent := UInt8.ofNat flags &&& 0x01 ≠ 0, reasonCode := reason } cur

/-- The alias part of `s_aws_mqtt5_decoder_decode_publish` (508-540). The resolver is `none` when the
pointer is NULL. -/
def applyAlias (resolver : Option Inbound) (v : PublishView) : Option (PublishView × Option Inbound) :=
  match v.topicAlias with
  | none => some (v, resolver)
  | some alias =>
    match resolver with
    | none => none                                                                  -- 509
    | some res =>
      if alias = 0 then none                                                        -- 518
      else if v.topic.length > 0 then
        match res.register alias v.topic with                                       -- 527
        | none => none
        | some res => some (v, some res)
      else match res.resolve alias with                                             -- 534
        | none => none
        | some topic => some ({ v with topic }, some res)

/-- `s_aws_mqtt5_decoder_decode_publish` (438-560). -/
def decodePublish (resolver : Option Inbound) (first : UInt8) (remaining : Nat) (cur : Bytes) :
    Option (PublishView × Option Inbound) :=
  let qos := ((first >>> 1) &&& 3).toNat                                            -- 465
  if remaining ≠ cur.length then none                                               -- 469
  else match getPrefixed cur with
    | none => none
    | some (topic, cur) =>
      match (if qos > 0 then getU16 cur else some (0, cur)) with                    -- 483
      | none => none
      | some (packetId, cur) =>
        match getVli cur with
        | none => none
        | some (n, cur) =>
          if n > cur.length then none                                               -- 489
          else
            let v : PublishView :=
              { duplicate := first &&& 8 ≠ 0, retain := first &&& 1 ≠ 0, qos, topic, packetId }
            match readProperties publishProperty v (advance n cur).1 with
            | none => none
            | some v => applyAlias resolver { v with payload := (advance n cur).2 }

/-- `s_aws_mqtt5_decoder_decode_puback` (602-669). -/
def decodePuback (first : UInt8) (remaining : Nat) (cur : Bytes) : Option PubackView :=
  if first &&& 0x0F ≠ 0 then none
  else if remaining ≠ cur.length then none
  else match getU16 cur with
    | none => none
    | some (packetId, cur) =>
      if cur.length > 0 then
        match getU8 cur with
        | none => none
        | some (reason, cur) =>
          if cur.length > 0 then lastProperties pubackProperty { packetId, reasonCode := reason } cur
          else some { packetId, reasonCode := reason }
      else some { packetId }

/-- `s_aws_mqtt5_decoder_decode_suback` (711-768) and `s_aws_mqtt5_decoder_decode_unsuback` (810-885). -/
def decodeSuback (cur : Bytes) : Option SubackView :=
  match getU16 cur with
  | none => none
  | some (packetId, cur) =>
    match getVli cur with
    | none => none
    | some (n, cur) =>
      match readProperties subackProperty { packetId } (advance n cur).1 with
      | none => none
      | some v => some { v with reasonCodes := (advance n cur).2.map UInt8.toNat }

/-- `s_aws_mqtt5_decoder_decode_disconnect` (940-1003). -/
def decodeDisconnect (first : UInt8) (remaining : Nat) (cur : Bytes) : Option DisconnectView :=
  if first &&& 0x0F ≠ 0 then none
  else if remaining ≠ cur.length then none
  else if remaining > 0 then
    match getU8 cur with
    | none => none
    | some (reason, cur) =>
      if cur.length = 0 then some { reasonCode := reason }
      else lastProperties disconnectProperty { reasonCode := reason } cur
  else some {}

/-- `s_aws_mqtt5_decoder_decode_pingresp` (1005-1027). -/
def decodePingresp (first : UInt8) (remaining : Nat) (cur : Bytes) : Bool :=
  cur.length = 0 ∧ first = 0xD0 ∧ remaining = 0

/-- `packet_first_byte >> 4`. -/
def typeOf (first : UInt8) : Nat := (first >>> 4).toNat

/-- `s_is_decodable_packet_type` (34-37) with the default table (1112-1132). -/
def decodable (type : Nat) : Bool :=
  match type with
  | 2 | 3 | 4 | 9 | 11 | 13 | 14 => true
  | _ => false

/-- `s_aws_mqtt5_decoder_decode_packet` (1029-1038) with the default table, up to the call of
`on_packet_received`: what it is called with, and the resolver. -/
def decodePacket (resolver : Option Inbound) (first : UInt8) (remaining : Nat) (cur : Bytes) :
    Option (Received × Option Inbound) :=
  match typeOf first with
  | 2 => (decodeConnack first remaining cur).map fun v => (.connack v, resolver)
  | 3 => (decodePublish resolver first remaining cur).map fun v => (.publish v.1, v.2)
  | 4 => (decodePuback first remaining cur).map fun v => (.puback v, resolver)
  | 9 => (decodeSuback cur).map fun v => (.suback v, resolver)
  | 11 => (decodeSuback cur).map fun v => (.unsuback v, resolver)
  | 13 => if decodePingresp first remaining cur then some (.pingresp, resolver) else none
  | 14 => (decodeDisconnect first remaining cur).map fun v => (.disconnect v, resolver)
  | _ => none

/-! ### The stream -/

/-- `enum aws_mqtt5_decoder_state` (mqtt5_decoder.h:57-84). -/
inductive DState where
  | readPacketType
  | readRemainingLength
  | readPacket
  | fatalError
deriving DecidableEq, Repr

/-- `struct aws_mqtt5_decoder` (mqtt5_decoder.h:118-150) without its configuration, its resolver (see
`World`), and `packet_cursor`, which is set right before it is used. -/
structure Decoder where
  state : DState
  scratch : Bytes
  firstByte : UInt8
  remaining : Nat
deriving DecidableEq, Repr

/-- `aws_mqtt5_decoder_init` (1137-1158); also the state after
`s_enter_state(AWS_MQTT5_DS_READ_PACKET_TYPE)` (16-32). -/
def Decoder.init : Decoder := ⟨.readPacketType, [], 0, 0⟩

/-- `aws_mqtt5_decoder_reset` (1160-1164) with `s_reset_decoder_for_new_packet` (16-22). -/
def Decoder.reset (d : Decoder) : Decoder :=
  { d with scratch := [], firstByte := 0, remaining := 0, state := .readPacketType }

/-- What the decoder works on besides its own state: the inbound alias resolver, and the state of the
receiver. -/
structure World (σ : Type) where
  receiver : σ
  resolver : Option Inbound
deriving DecidableEq, Repr

/-- `on_packet_received`: whether it succeeds, and what it leaves. It may replace the resolver
(mqtt5_client.c resets it when the CONNACK arrives), and does not touch the decoder otherwise. -/
abbrev OnPacket (σ : Type) := World σ → Received → World σ × Bool

variable {σ : Type} (handle : OnPacket σ)

/-- `s_aws_mqtt5_decoder_decode_packet` with the callback. -/
def deliverPacket (w : World σ) (first : UInt8) (remaining : Nat) (cur : Bytes) : World σ × Bool :=
  match decodePacket w.resolver first remaining cur with
  | none => (w, false)
  | some (p, resolver) => handle { w with resolver } p

/-- `enum aws_mqtt5_decode_result_type`. -/
inductive Directive where
  | success | more | error
deriving DecidableEq, Repr

/-- `s_aws_mqtt5_decoder_read_packet_type_on_data` (42-70). -/
def readPacketType (d : Decoder) (data : Bytes) : Directive × Decoder × Bytes :=
  match data with
  | [] => (.more, d, data)
  | b :: rest =>
    if decodable (typeOf b) then
      (.success, { d with firstByte := b, state := .readRemainingLength, scratch := [] }, rest)
    else (.error, { d with scratch := d.scratch ++ [b] }, rest)

/-- `s_aws_mqtt5_decoder_read_vli_on_data` (111-134): result, scratch space, data left. -/
def readVliOnData (scratch : Bytes) : Bytes → VliResult × Bytes × Bytes
  | [] => (.more, scratch, [])
  | b :: rest =>
    match decodeVli (scratch ++ [b]) with
    | .more => readVliOnData (scratch ++ [b]) rest
    | r => (r, scratch ++ [b], rest)

/-- `s_aws_mqtt5_decoder_read_remaining_length_on_data` (137-150). -/
def readRemainingLength (d : Decoder) (data : Bytes) : Directive × Decoder × Bytes :=
  match readVliOnData d.scratch data with
  | (.ok n _, _, rest) => (.success, { d with remaining := n, state := .readPacket, scratch := [] }, rest)
  | (.more, scratch, rest) => (.more, { d with scratch }, rest)
  | (.error, scratch, rest) => (.error, { d with scratch }, rest)

/-- End of `s_aws_mqtt5_decoder_read_packet_on_data` (1069-1077). -/
def finishPacket (d : Decoder) (w : World σ) (cur rest : Bytes) : Directive × Decoder × World σ × Bytes :=
  let r := deliverPacket handle w d.firstByte d.remaining cur
  if r.2 then (.success, Decoder.init, r.1, rest) else (.error, d, r.1, rest)

/-- `s_aws_mqtt5_decoder_read_packet_on_data` (1046-1078). -/
def readPacket (d : Decoder) (w : World σ) (data : Bytes) : Directive × Decoder × World σ × Bytes :=
  if d.scratch.length = 0 ∧ d.remaining ≤ data.length then                          -- 1051
    finishPacket handle d w (advance d.remaining data).1 (advance d.remaining data).2
  else
    let unread := subSize d.remaining d.scratch.length                              -- 1056
    let copy := min unread data.length
    let d := { d with scratch := d.scratch ++ (advance copy data).1 }
    if copy < unread then (.more, d, w, (advance copy data).2)
    else finishPacket handle d w d.scratch (advance copy data).2

/-- One round of the loop of `aws_mqtt5_decoder_on_data_received` (1083-1101). -/
def step (d : Decoder) (w : World σ) (data : Bytes) : Directive × Decoder × World σ × Bytes :=
  match d.state with
  | .readPacketType => ((readPacketType d data).1, (readPacketType d data).2.1, w, (readPacketType d data).2.2)
  | .readRemainingLength =>
    ((readRemainingLength d data).1, (readRemainingLength d data).2.1, w, (readRemainingLength d data).2.2)
  | .readPacket => readPacket handle d w data
  | .fatalError => (.error, d, w, data)

/-- Every successful round consumes data or leaves the state `readPacket`. -/
def measure (d : Decoder) (data : Bytes) : Nat := 2 * data.length + (if d.state = .readPacket then 1 else 0)

theorem readVliOnData_length (scratch data : Bytes) {n : Nat} {r s t : Bytes}
    (h : readVliOnData scratch data = (.ok n r, s, t)) : t.length < data.length := by
  induction data generalizing scratch with
  | nil => simp [readVliOnData] at h
  | cons b rest ih =>
    rw [readVliOnData] at h
    split at h
    · have := ih _ h; simp; omega
    · simp at h; simp [h.2.2]

theorem finishPacket_decreases (d : Decoder) (w : World σ) (cur rest : Bytes)
    (h : (finishPacket handle d w cur rest).1 = .success) :
    (finishPacket handle d w cur rest).2.1 = Decoder.init ∧ (finishPacket handle d w cur rest).2.2.2 = rest := by
  revert h
  unfold finishPacket
  simp only
  split <;> simp

theorem advance_snd_length (n : Nat) (cur : Bytes) : (advance n cur).2.length ≤ cur.length := by
  unfold advance; split <;> simp

theorem step_decreases (d : Decoder) (w : World σ) (data : Bytes) (h : (step handle d w data).1 = .success) :
    measure (step handle d w data).2.1 (step handle d w data).2.2.2 < measure d data := by
  revert h
  unfold step
  split
  · rename_i hs
    unfold readPacketType
    split
    · simp
    · split
      · intro _; simp [measure, hs]
      · simp
  · rename_i hs
    unfold readRemainingLength
    split
    · rename_i hv
      have := readVliOnData_length _ _ hv
      intro _; simp [measure, hs]; omega
    · simp
    · simp
  · rename_i hs
    unfold readPacket
    split
    · intro h
      have hf := finishPacket_decreases handle d w _ _ h
      have := advance_snd_length d.remaining data
      rw [hf.1, hf.2]
      simp [measure, hs, Decoder.init]; omega
    · simp only
      split
      · simp
      · intro h
        have := finishPacket_decreases handle _ w _ _ h
        rw [this.1, this.2]
        have := advance_snd_length (min (subSize d.remaining d.scratch.length) data.length) data
        simp [measure, hs, Decoder.init]; omega
  · simp

/-- `aws_mqtt5_decoder_on_data_received` (1081-1110): whether it succeeds, and the state after. -/
def onDataReceived (d : Decoder) (w : World σ) (data : Bytes) : Bool × Decoder × World σ :=
  match _h : (step handle d w data).1 with
  | .success => onDataReceived (step handle d w data).2.1 (step handle d w data).2.2.1 (step handle d w data).2.2.2
  | .more => (true, (step handle d w data).2.1, (step handle d w data).2.2.1)
  | .error => (false, { (step handle d w data).2.1 with state := .fatalError }, (step handle d w data).2.2.1)
termination_by measure d data
decreasing_by exact step_decreases handle d w data _h

end Mqtt.V5
