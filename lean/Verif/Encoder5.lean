import Verif.Vli5
import Verif.Views5
import Verif.TopicAlias

/-!
Model of /repo/source/v5/mqtt5_encoder.c (line numbers refer to it unless said otherwise) and of the
macros in include/aws/mqtt/private/v5/mqtt5_encoder.h.

`size_t` sums are natural numbers without wrap-around (lengths of byte strings that exist in memory do not
add up to 2^64); the casts to `uint32_t` and `uint16_t` are modelled.
-/
namespace Mqtt.V5

/-- `struct aws_mqtt5_encoding_step`. `AWS_MQTT5_EST_STREAM` is never pushed by /repo and left out. -/
inductive Step where
  | u8 (v : UInt8)
  | u16 (v : UInt16)
  | u32 (v : UInt32)
  | vli (v : Nat)
  | cursor (v : Bytes)
deriving DecidableEq, Repr

/-- `enum aws_mqtt5_encoding_result`; the error result only arises from streams. -/
inductive EncodeResult where
  | finished
  | outOfRoom
deriving DecidableEq, Repr

/-- `s_execute_encode_step` (1042-1137): result, buffer and what is left of the step. -/
def executeStep (step : Step) (buf : Buf) : EncodeResult × Buf × Step :=
  let room := buf.cap - buf.data.length                                            -- 1046
  match step with
  | .u8 v =>
    if room < 1 then (.outOfRoom, buf, step)
    else (.finished, { buf with data := buf.data ++ [v] }, step)                   -- 1049-1056
  | .u16 v =>
    if room < 2 then (.outOfRoom, buf, step)
    else (.finished, { buf with data := buf.data ++ be16 v }, step)                -- 1058-1065
  | .u32 v =>
    if room < 4 then (.outOfRoom, buf, step)
    else (.finished, { buf with data := buf.data ++ be32 v }, step)                -- 1067-1074
  | .vli v =>
    if room < 4 then (.outOfRoom, buf, step)                                       -- 1078-1080
    else
      match encodeVli buf v with                                                   -- 1083, result ignored
      | .ok buf => (.finished, buf, step)
      | .error _ => (.finished, buf, step)
  | .cursor v =>
    if room < 1 then (.outOfRoom, buf, step)                                       -- 1088-1090
    else
      let buf := { buf with data := buf.data ++ v.take room }                      -- 1092
      let v := v.drop room
      (if v.length = 0 then .finished else .outOfRoom, buf, .cursor v)             -- 1094

/-- The loop of `aws_mqtt5_encoder_encode_to_buffer` (1145-1153): result, buffer, steps not yet finished
(the array from `current_encoding_step_index` on). -/
def encodeSteps : List Step → Buf → EncodeResult × Buf × List Step
  | [], buf => (.finished, buf, [])
  | step :: steps, buf =>
    match executeStep step buf with
    | (.finished, buf, _) => encodeSteps steps buf
    | (.outOfRoom, buf, step) => (.outOfRoom, buf, step :: steps)

/-- `ADD_ENCODE_STEP_VLI` fails on values that are too large (push: 88-103) and ends the function that is
pushing; the steps pushed before stay in the list. -/
def pushSteps : List Step → List Step × Bool
  | [] => ([], true)
  | .vli v :: rest =>
    if v > maxVli then ([], false)
    else let r := pushSteps rest; (.vli v :: r.1, r.2)
  | step :: rest => let r := pushSteps rest; (step :: r.1, r.2)

/-- A cast to `uint32_t`. -/
def u32 (n : Nat) : Nat := n % 4294967296

def stepU8 (n : Nat) : Step := .u8 (UInt8.ofNat n)
def stepU16 (n : Nat) : Step := .u16 (UInt16.ofNat n)
def stepU32 (n : Nat) : Step := .u32 (UInt32.ofNat n)

/-- `ADD_ENCODE_STEP_LENGTH_PREFIXED_CURSOR` (mqtt5_encoder.h:288-292). -/
def prefixed (c : Bytes) : List Step := [stepU16 c.length, .cursor c]

/-- `ADD_ENCODE_STEP_OPTIONAL_LENGTH_PREFIXED_CURSOR` (294-297). -/
def optPrefixed : Option Bytes → List Step
  | none => []
  | some c => prefixed c

/-- `ADD_ENCODE_STEP_OPTIONAL_U8_PROPERTY` (301-305). -/
def optU8 (type : Nat) : Option Nat → List Step
  | none => []
  | some v => [stepU8 type, stepU8 v]

/-- `ADD_ENCODE_STEP_OPTIONAL_U16_PROPERTY` (307-311). -/
def optU16 (type : Nat) : Option Nat → List Step
  | none => []
  | some v => [stepU8 type, stepU16 v]

/-- `ADD_ENCODE_STEP_OPTIONAL_U32_PROPERTY` (313-317). -/
def optU32 (type : Nat) : Option Nat → List Step
  | none => []
  | some v => [stepU8 type, stepU32 v]

/-- `ADD_ENCODE_STEP_OPTIONAL_CURSOR_PROPERTY` (325-330). -/
def optCursor (type : Nat) : Option Bytes → List Step
  | none => []
  | some c => [stepU8 type, stepU16 c.length, .cursor c]

/-- `ADD_OPTIONAL_U8_PROPERTY_LENGTH` and its relatives (mqtt5_encoder.h:337-355). -/
def optU8Len (o : Option Nat) : Nat := if o.isSome then 2 else 0
def optU16Len (o : Option Nat) : Nat := if o.isSome then 3 else 0
def optU32Len (o : Option Nat) : Nat := if o.isSome then 5 else 0
def optCursorLen : Option Bytes → Nat
  | none => 0
  | some c => 3 + c.length

/-- Length of an optional length prefixed cursor (306-313). -/
def optPrefixedLen : Option Bytes → Nat
  | none => 0
  | some c => c.length + 2

/-- `aws_mqtt5_compute_user_property_encode_length` (124-143). -/
def userPropertiesLen (ps : List UserProperty) : Nat :=
  ps.foldl (fun n p => n + p.name.length + p.value.length) (5 * ps.length)

/-- `aws_mqtt5_add_user_property_encoding_steps` (145-159). -/
def userPropertySteps (ps : List UserProperty) : List Step :=
  ps.flatMap fun p =>
    [stepU8 38, stepU16 p.name.length, .cursor p.name, stepU16 p.value.length, .cursor p.value]

/-- `aws_mqtt5_compute_fixed_header_byte1` (mqtt5_utils.c:12-14). -/
def byte1 (type : Nat) (flags : UInt8) : UInt8 := flags ||| (UInt8.ofNat type <<< 4)

/-- `s_aws_mqtt5_encoder_begin_pingreq` (161-172). -/
def pingreqSteps : List Step := [.u8 (byte1 12 0), stepU8 0]

/-- `s_compute_disconnect_variable_length_fields` (174-196): total remaining length, property length. -/
def disconnectLengths (v : DisconnectView) : Option (Nat × Nat) := do
  let props := userPropertiesLen v.userProperties + optU32Len v.sessionExpiry +
    optCursorLen v.serverReference + optCursorLen v.reasonString                   -- 178-183
  let size ← vliSize props                                                         -- 187-190
  some (1 + props + size, props)                                                   -- 193

/-- `s_aws_mqtt5_encoder_begin_disconnect` (198-243). -/
def disconnectSteps (v : DisconnectView) : Option (List Step) := do
  let (total, props) ← disconnectLengths v
  some ([.u8 (byte1 14 0), .vli (u32 total), stepU8 v.reasonCode, .vli (u32 props)] ++    -- 225-228
    (if props > 0 then
      optU32 17 v.sessionExpiry ++ optCursor 31 v.reasonString ++ optCursor 28 v.serverReference ++
        userPropertySteps v.userProperties                                         -- 230-240
    else []))

/-- `s_compute_connect_variable_length_fields` (245-318): total, connect property length, will property
length. -/
def connectLengths (v : ConnectView) : Option (Nat × Nat × Nat) := do
  let props := userPropertiesLen v.userProperties + optU32Len v.sessionExpiry +
    optU16Len v.receiveMaximum + optU32Len v.maximumPacketSize + optU16Len v.topicAliasMaximum +
    optU8Len v.requestResponse + optU8Len v.requestProblem + optCursorLen v.authMethod +
    optCursorLen v.authData                                                        -- 251-261
  let size ← vliSize props                                                         -- 270-273
  let header := size + (10 + props)                                                -- 275
  let payload := 2 + v.clientId.length                                             -- 277
  let willPart ← (match v.will with
    | none => some (0, 0)
    | some w => do
      let wprops := userPropertiesLen w.userProperties + optU32Len v.willDelay + optU8Len w.payloadFormat +
        optU32Len w.messageExpiry + optCursorLen w.contentType + optCursorLen w.responseTopic +
        optCursorLen w.correlationData                                             -- 283-291
      let wsize ← vliSize (u32 wprops)                                             -- 293-297
      some (wprops, wprops + wsize + (2 + w.topic.length) + (2 + w.payload.length)))   -- 299-303
  some (payload + willPart.2 + optPrefixedLen v.username + optPrefixedLen v.password + header, u32 props, willPart.1)        -- 263, 315

/-- `s_aws_mqtt5_connect_compute_connect_flags` (320-346). -/
def connectFlags (v : ConnectView) : UInt8 :=
  let flags : UInt8 := if v.cleanStart then 2 else 0
  let flags : UInt8 := match v.will with
    | none => flags
    | some w =>
      let flags : UInt8 := flags ||| (4 : UInt8) ||| (UInt8.ofNat w.qos <<< (3 : UInt8))
      if w.retain then flags ||| 32 else flags
  let flags : UInt8 := if v.password.isSome then flags ||| 64 else flags
  if v.username.isSome then flags ||| 128 else flags

/-- The will part of `s_aws_mqtt5_encoder_begin_connect` (407-425). -/
def willSteps (v : ConnectView) (w : PublishView) (wprops : Nat) : List Step :=
  [.vli (u32 wprops)] ++ optU32 24 v.willDelay ++ optU8 1 w.payloadFormat ++ optU32 2 w.messageExpiry ++
    optCursor 3 w.contentType ++ optCursor 8 w.responseTopic ++ optCursor 9 w.correlationData ++
    userPropertySteps w.userProperties ++ prefixed w.topic ++ [stepU16 w.payload.length, .cursor w.payload]

/-- `s_aws_mqtt5_encoder_begin_connect` (348-431); the protocol cursor is mqtt5_utils.c:17-22. -/
def connectSteps (v : ConnectView) : Option (List Step) := do
  let (total, props, wprops) ← connectLengths v
  some ([.u8 (byte1 1 0), .vli (u32 total), .cursor [0x00, 0x04, 0x4D, 0x51, 0x54, 0x54, 0x05],
      .u8 (connectFlags v), stepU16 v.keepAlive, .vli (u32 props)] ++              -- 378-384
    optU32 17 v.sessionExpiry ++ optU16 33 v.receiveMaximum ++ optU32 39 v.maximumPacketSize ++
    optU16 34 v.topicAliasMaximum ++ optU8 25 v.requestResponse ++ optU8 23 v.requestProblem ++
    optCursor 21 v.authMethod ++ optCursor 22 v.authData ++ userPropertySteps v.userProperties ++   -- 385-403
    prefixed v.clientId ++                                                         -- 405
    (match v.will with | none => [] | some w => willSteps v w wprops) ++
    optPrefixed v.username ++ optPrefixed v.password)                              -- 427-428

/-- `s_aws_mqtt5_subscribe_compute_subscription_flags` (433-449). -/
def subscriptionFlags (s : SubscriptionView) : UInt8 :=
  let flags : UInt8 := UInt8.ofNat s.qos
  let flags : UInt8 := if s.noLocal then flags ||| 4 else flags
  let flags : UInt8 := if s.retainAsPublished then flags ||| 8 else flags
  flags ||| (UInt8.ofNat s.retainHandling <<< 4)

/-- Length of an optional subscription identifier (486-491). The result of the size function is ignored
at 488; the size stays 0 then. -/
def subIdLen : Option Nat → Nat
  | none => 0
  | some i => (vliSize i).getD 0 + 1

/-- Steps of an optional subscription identifier (580-583). -/
def subIdSteps : Option Nat → List Step
  | none => []
  | some i => [stepU8 11, .vli i]

/-- `s_compute_subscribe_variable_length_fields` (474-524): total remaining length, property length. -/
def subscribeLengths (v : SubscribeView) : Option (Nat × Nat) := do
  let props := userPropertiesLen v.userProperties + subIdLen v.subscriptionIdentifier   -- 479-491
  let size ← vliSize props                                                         -- 500-503
  let payload := v.subscriptions.foldl (fun n s => n + s.topicFilter.length) 0 +
    3 * v.subscriptions.length                                                     -- 515-519
  some (size + (2 + props) + payload, props)                                       -- 504, 521

/-- `s_aws_mqtt5_encoder_begin_subscribe` (526-604). -/
def subscribeSteps (v : SubscribeView) : Option (List Step) := do
  let (total, props) ← subscribeLengths v
  some ([.u8 (byte1 8 2), .vli (u32 total), stepU16 v.packetId, .vli (u32 props)] ++   -- 562-573
    subIdSteps v.subscriptionIdentifier ++                                         -- 580-583
    userPropertySteps v.userProperties ++                                          -- 585-586
    v.subscriptions.flatMap fun s => prefixed s.topicFilter ++ [.u8 (subscriptionFlags s)])   -- 600-601

/-- `s_compute_unsubscribe_variable_length_fields` (606-646). -/
def unsubscribeLengths (v : UnsubscribeView) : Option (Nat × Nat) := do
  let props := userPropertiesLen v.userProperties                                  -- 611-614
  let size ← vliSize props                                                         -- 621-625
  let payload := v.topicFilters.foldl (fun n f => n + f.length) 0 + 2 * v.topicFilters.length   -- 636-641
  some (size + (2 + props) + payload, props)                                       -- 626, 643

/-- `s_aws_mqtt5_encoder_begin_unsubscribe` (648-714). -/
def unsubscribeSteps (v : UnsubscribeView) : Option (List Step) := do
  let (total, props) ← unsubscribeLengths v
  some ([.u8 (byte1 10 2), .vli (u32 total), stepU16 v.packetId, .vli (u32 props)] ++
    userPropertySteps v.userProperties ++ v.topicFilters.flatMap prefixed)

/-- The subscription identifiers of `s_compute_publish_variable_length_fields` (731-737). -/
def subscriptionIdsLen : List Nat → Option Nat
  | [] => some 0
  | i :: rest => do
    let size ← vliSize i
    let n ← subscriptionIdsLen rest
    some (1 + size + n)

/-- `s_compute_publish_variable_length_fields` (716-775). -/
def publishLengths (v : PublishView) : Option (Nat × Nat) := do
  let ids ← subscriptionIdsLen v.subscriptionIdentifiers                           -- 731-737
  let props := userPropertiesLen v.userProperties + optU8Len v.payloadFormat + optU32Len v.messageExpiry +
    optU16Len v.topicAlias + optCursorLen v.responseTopic + optCursorLen v.correlationData +
    optCursorLen v.contentType + ids                                               -- 721-729
  let size ← vliSize props                                                         -- 751-756
  some (size + (2 + v.topic.length) + (if v.packetId ≠ 0 then 2 else 0) + props + v.payload.length,
    u32 props)                                                                     -- 739, 759-772

/-- Fixed header flags of a PUBLISH (867-877). -/
def publishFlags5 (v : PublishView) : UInt8 :=
  let flags : UInt8 := if v.duplicate then 8 else 0
  let flags : UInt8 := flags ||| (UInt8.ofNat v.qos <<< 1)
  if v.retain then flags ||| 1 else flags

/-- `s_aws_mqtt5_encoder_begin_publish` from line 831 on, applied to the local view. -/
def publishSteps (v : PublishView) : Option (List Step) := do
  let (total, props) ← publishLengths v
  some ([.u8 (byte1 3 (publishFlags5 v)), .vli (u32 total)] ++                     -- 879-881
    prefixed v.topic ++ (if v.qos ≠ 0 then [stepU16 v.packetId] else []) ++ [.vli (u32 props)] ++   -- 891-895
    optU8 1 v.payloadFormat ++ optU32 2 v.messageExpiry ++ optU16 35 v.topicAlias ++
    optCursor 8 v.responseTopic ++ optCursor 9 v.correlationData ++
    (v.subscriptionIdentifiers.flatMap fun i => [stepU8 11, .vli i]) ++            -- 907-910
    optCursor 3 v.contentType ++ userPropertySteps v.userProperties ++
    (if v.payload.length > 0 then [.cursor v.payload] else []))                    -- 921-923

/-- `s_compute_puback_variable_length_fields` (928-968). -/
def pubackLengths (v : PubackView) : Option (Nat × Nat) :=
  let props := userPropertiesLen v.userProperties + optCursorLen v.reasonString    -- 933-936
  if props = 0 then
    some (if v.reasonCode = 0 then 2 else 3, u32 props)                            -- 951-958
  else do
    let size ← vliSize props                                                       -- 960-963
    some (size + 3 + props, u32 props)                                             -- 965

/-- `s_aws_mqtt5_encoder_begin_puback` (970-1040). -/
def pubackSteps (v : PubackView) : Option (List Step) := do
  let (total, props) ← pubackLengths v
  some ([.u8 (byte1 4 0), .vli (u32 total), stepU16 v.packetId] ++                 -- 1005-1015
    (if total = 2 then []                                                          -- 1020-1022
    else [stepU8 v.reasonCode] ++                                                  -- 1024
      (if total < 4 then []                                                        -- 1030-1032
      else [.vli (u32 props)] ++ optCursor 31 v.reasonString ++
        userPropertySteps v.userProperties)))                                      -- 1034-1037

/-- A packet handed to the encoder. -/
inductive Outgoing where
  | connect (v : ConnectView)
  | publish (v : PublishView)
  | puback (v : PubackView)
  | subscribe (v : SubscribeView)
  | unsubscribe (v : UnsubscribeView)
  | pingreq
  | disconnect (v : DisconnectView)
deriving DecidableEq, Repr

/-- The table of begin functions (1164-1184), for a packet whose view is final. -/
def packetSteps : Outgoing → Option (List Step)
  | .connect v => connectSteps v
  | .publish v => publishSteps v
  | .puback v => pubackSteps v
  | .subscribe v => subscribeSteps v
  | .unsubscribe v => unsubscribeSteps v
  | .pingreq => some pingreqSteps
  | .disconnect v => disconnectSteps v

/-- The encoder: steps from `current_encoding_step_index` on and the outbound alias resolver. -/
structure Encoder where
  steps : List Step := []
  resolver : Option TopicAlias.Outbound := none
deriving DecidableEq, Repr

inductive Appended where
  | ok (e : Encoder)
  | failed (e : Encoder)
  | abort                                                                          -- fatal assert at 816
deriving DecidableEq, Repr

/-- The part of the begin functions shared by all packets: push the steps that can be pushed. -/
def Encoder.push (e : Encoder) (steps : Option (List Step)) : Appended :=
  match steps with
  | none => .failed e
  | some steps =>
    let r := pushSteps steps
    if r.2 then .ok { e with steps := e.steps ++ r.1 } else .failed { e with steps := e.steps ++ r.1 }

/-- `aws_mqtt5_encoder_append_packet_encoding` (1217-1227); the alias resolution of a PUBLISH is 784-823. -/
def Encoder.append (e : Encoder) (p : Outgoing) : Appended :=
  match p with
  | .publish v =>
    match e.resolver with
    | none => e.push (publishSteps v)
    | some r =>
      match TopicAlias.beginPublish r v.topic v.topicAlias with
      | .refused => .failed e
      | .abort => .abort
      | .ok r topic alias =>
        ({ e with resolver := some r } : Encoder).push (publishSteps { v with topic := topic, topicAlias := alias })
  | p => e.push (packetSteps p)

/-- `aws_mqtt5_encoder_encode_to_buffer` (1139-1162); when everything is finished the step list is
reset (1155-1159, 1212-1215). -/
def Encoder.encodeToBuffer (e : Encoder) (buf : Buf) : EncodeResult × Buf × Encoder :=
  match encodeSteps e.steps buf with
  | (.finished, buf, _) => (.finished, buf, { e with steps := [] })
  | (.outOfRoom, buf, steps) => (.outOfRoom, buf, { e with steps := steps })

/-- `s_compute_packet_size` (1229-1243). -/
def packetSize (total : Nat) : Option Nat := (vliSize total).map fun n => 1 + n + total

/-- `aws_mqtt5_packet_view_get_encoded_size` (1245-1294); CONNECT is not supported. -/
def encodedSize : Outgoing → Option Nat
  | .pingreq => some 2
  | .publish v => (publishLengths v).bind fun l => packetSize l.1
  | .subscribe v => (subscribeLengths v).bind fun l => packetSize l.1
  | .unsubscribe v => (unsubscribeLengths v).bind fun l => packetSize l.1
  | .disconnect v => (disconnectLengths v).bind fun l => packetSize l.1
  | .puback v => (pubackLengths v).bind fun l => packetSize l.1
  | .connect _ => none

end Mqtt.V5
