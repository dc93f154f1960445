import Verif.FixedHeader

/-!
Model of /repo/source/packets.c (MQTT 3.1.1 control packets).

Decoders are given the bytes of one packet and a zeroed output struct (all callers in
client_channel_handler.c pass a zero-initialised struct). They return the packet and the bytes left
unread, which all callers ignore. `aws_array_list` push cannot fail (allocation never fails).
-/
namespace Mqtt

/-- `s_protocol_name` (packets.c:11-14). -/
def protocolName : Bytes := [77, 81, 84, 84]
/-- `S_PROTOCOL_LEVEL` (packets.c:8). -/
def protocolLevel : UInt8 := 4
/-- `S_BIT_1_FLAGS` (packets.c:9). -/
def bit1Flags : UInt8 := 2

/-- `s_sizeof_encoded_buffer` (packets.c:16-18). -/
def sizeofEncodedBuffer (s : Bytes) : Nat := 2 + s.length

/-- `s_encode_buffer` (packets.c:20-41). -/
def encodeBuffer (b : Buf) (s : Bytes) : Except Err Buf :=
  if s.length > 65535 then .error .bufferTooBig                    -- 26-28
  else do
    let b ← b.put (be16 (UInt16.ofNat s.length))                   -- 31-33
    b.put s                                                        -- 36-38

/-- State of the output buffer after a call of `s_encode_buffer` whose result is ignored
(packets.c:734 and 1027): the prefix may have been written although the data was not. -/
def encodeBufferIgnoreResult (b : Buf) (s : Bytes) : Buf :=
  if s.length > 65535 then b
  else match b.put (be16 (UInt16.ofNat s.length)) with
    | .error _ => b
    | .ok b1 => match b1.put s with
      | .error _ => b1
      | .ok b2 => b2

/-- `s_decode_buffer` (packets.c:43-58). `aws_byte_cursor_advance` returns an empty cursor and does
not move when too few bytes remain; the code does not look at that. -/
def decodeBuffer (cur : Bytes) : Except Err (Bytes × Bytes) := do
  let (len, cur) ← orShort (readBe16 cur)
  .ok (advance len.toNat cur)

/-- `if (...) return aws_raise_error(AWS_ERROR_SHORT_BUFFER)` around a call (packets.c:228-230, 305-307). -/
def remapShort {α : Type} : Except Err α → Except Err α
  | .ok a => .ok a
  | .error _ => .error .shortBuffer

/-! ### Acks: PUBACK, PUBREC, PUBREL, PUBCOMP, UNSUBACK -/

/-- `struct aws_mqtt_packet_ack` (packets.h:39-45). -/
structure AckPacket where
  header : FixedHeader
  packetId : UInt16
deriving DecidableEq, Repr

/-- `s_ack_init` (packets.c:63-73). -/
def ackInit (type : Nat) (packetId : UInt16) : AckPacket :=
  { header := { packetType := type, remainingLength := 2, flags := 0 }, packetId := packetId }

/-- `aws_mqtt_packet_puback_init` (612-617). -/
def pubackInit (id : UInt16) : AckPacket := ackInit PUBACK id
/-- `aws_mqtt_packet_pubrec_init` (622-627). -/
def pubrecInit (id : UInt16) : AckPacket := ackInit PUBREC id
/-- `aws_mqtt_packet_pubrel_init` (632-638). -/
def pubrelInit (id : UInt16) : AckPacket :=
  let p := ackInit PUBREL id
  { p with header := { p.header with flags := bit1Flags } }
/-- `aws_mqtt_packet_pubcomp_init` (643-648). -/
def pubcompInit (id : UInt16) : AckPacket := ackInit PUBCOMP id
/-- `aws_mqtt_packet_unsuback_init` (1078-1083). -/
def unsubackInit (id : UInt16) : AckPacket := ackInit UNSUBACK id

/-- `aws_mqtt_packet_ack_encode` (75-96). -/
def ackEncode (b : Buf) (p : AckPacket) : Except Err Buf := do
  let b ← fixedHeaderEncode b p.header
  b.put (be16 p.packetId)

/-- `aws_mqtt_packet_ack_decode` (98-125). -/
def ackDecode (cur : Bytes) : Except Err (AckPacket × Bytes) := do
  let (h, cur) ← fixedHeaderDecode cur
  if h.flags ≠ (if packetHasFlags h.packetType then bit1Flags else 0) then .error .invalidReservedBits
  else
    let (id, cur) ← orShort (readBe16 cur)
    .ok ({ header := h, packetId := id }, cur)

/-! ### CONNECT -/

/-- `struct aws_mqtt_packet_connect` (packets.h:63-82). -/
structure ConnectPacket where
  header : FixedHeader
  cleanSession : Bool := false
  hasWill : Bool := false
  willRetain : Bool := false
  hasPassword : Bool := false
  hasUsername : Bool := false
  keepAlive : UInt16 := 0
  willQos : Nat := 0
  clientId : Bytes := []
  willTopic : Bytes := []
  willMessage : Bytes := []
  username : Bytes := []
  password : Bytes := []
deriving DecidableEq, Repr

/-- `aws_mqtt_packet_connect_init` (130-150). -/
def connectInit (clientId : Bytes) (clean : Bool) (keepAlive : UInt16) : ConnectPacket :=
  { header := { packetType := CONNECT, remainingLength := 10 + sizeofEncodedBuffer clientId, flags := 0 }
    clientId := clientId, cleanSession := clean, keepAlive := keepAlive }

/-- `aws_mqtt_packet_connect_add_credentials` (152-186). The differences `x.len - y.len` are
`size_t` and may wrap, the sum does not: written here as `+ new - old`. -/
def connectAddCredentials (p : ConnectPacket) (user pass : Bytes) : ConnectPacket :=
  let rl := p.header.remainingLength + (if !p.hasUsername then 2 else 0)      -- 160-163
  let rl := rl + user.length - p.username.length                              -- 166
  let p := { p with hasUsername := true, username := user }                   -- 167-169
  if pass.length > 0 then                                                     -- 171
    let rl := rl + (if !p.hasPassword then 2 else 0)                          -- 173-176
    let rl := rl + pass.length - p.password.length                            -- 179
    { p with hasPassword := true, password := pass, header := { p.header with remainingLength := rl } }
  else { p with header := { p.header with remainingLength := rl } }

/-- `aws_mqtt_packet_connect_add_will` (188-204). -/
def connectAddWill (p : ConnectPacket) (topic : Bytes) (qos : Nat) (retain : Bool) (payload : Bytes) :
    ConnectPacket :=
  { p with
    hasWill := true, willTopic := topic, willQos := qos, willRetain := retain, willMessage := payload
    header := { p.header with
      remainingLength := p.header.remainingLength + (sizeofEncodedBuffer topic + sizeofEncodedBuffer payload) } }

/-- Connect flags byte (packets.c:238-239). -/
def connectFlags (p : ConnectPacket) : UInt8 :=
  UInt8.ofNat (p.cleanSession.toNat <<< 1 ||| p.hasWill.toNat <<< 2 ||| p.willQos <<< 3 |||
    p.willRetain.toNat <<< 5 ||| p.hasPassword.toNat <<< 6 ||| p.hasUsername.toNat <<< 7)

/-- `aws_mqtt_packet_connect_encode` (206-283). -/
def connectEncode (b : Buf) (p : ConnectPacket) : Except Err Buf :=
  if p.hasPassword && !p.hasUsername then .error .invalidCredentials          -- 212-215
  else do
    let b ← fixedHeaderEncode b p.header                                      -- 220
    let b ← remapShort (encodeBuffer b protocolName)                          -- 228-230
    let b ← b.put [protocolLevel]                                             -- 233
    let b ← b.put [connectFlags p]                                            -- 238-243
    let b ← b.put (be16 p.keepAlive)                                          -- 246
    let b ← encodeBuffer b p.clientId                                         -- 254
    let b ← (if p.hasWill then do                                             -- 259-266
        let b ← encodeBuffer b p.willTopic
        encodeBuffer b p.willMessage
      else Except.ok b)
    let b ← (if p.hasUsername then encodeBuffer b p.username else Except.ok b)  -- 269-273
    if p.hasPassword then encodeBuffer b p.password else Except.ok b          -- 276-280

/-- `aws_mqtt_packet_connect_decode` (285-381). The `AWS_ASSERT` at 308 is debug only. -/
def connectDecode (cur : Bytes) : Except Err (ConnectPacket × Bytes) := do
  let (h, cur) ← fixedHeaderDecode cur                                        -- 293
  let (name, cur) ← remapShort (decodeBuffer cur)                             -- 305-307
  if name ≠ protocolName then .error .unsupportedProtocolName                 -- 309-314
  else
    let (level, cur) ← orShort (readU8 cur)                                   -- 317-320
    if level ≠ protocolLevel then .error .unsupportedProtocolLevel            -- 321-323
    else
      let (f, cur) ← orShort (readU8 cur)                                     -- 327
      let (ka, cur) ← orShort (readBe16 cur)                                  -- 338
      let p : ConnectPacket :=
        { header := h
          cleanSession := (f >>> 1) &&& 1 = 1                                 -- 330
          hasWill := (f >>> 2) &&& 1 = 1                                      -- 331
          willQos := ((f >>> 3) &&& 3).toNat                                  -- 332
          willRetain := (f >>> 5) &&& 1 = 1                                   -- 333
          hasPassword := (f >>> 6) &&& 1 = 1                                  -- 334
          hasUsername := (f >>> 7) &&& 1 = 1                                  -- 335
          keepAlive := ka }
      let (cid, cur) ← decodeBuffer cur                                       -- 346
      let (wt, cur) ← (if p.hasWill then decodeBuffer cur else Except.ok ([], cur))  -- 351-354
      let (wm, cur) ← (if p.hasWill then decodeBuffer cur else Except.ok ([], cur))  -- 355-357
      let (un, cur) ← (if p.hasUsername then decodeBuffer cur else Except.ok ([], cur))  -- 361-365
      let (pw, cur) ← (if p.hasPassword then decodeBuffer cur else Except.ok ([], cur))  -- 368-372
      if p.hasPassword && !p.hasUsername then .error .invalidCredentials      -- 375-378
      else .ok ({ p with clientId := cid, willTopic := wt, willMessage := wm, username := un, password := pw }, cur)

/-! ### CONNACK -/

/-- `struct aws_mqtt_packet_connack` (packets.h:85-92). -/
structure ConnackPacket where
  header : FixedHeader
  sessionPresent : Bool
  returnCode : UInt8
deriving DecidableEq, Repr

/-- `aws_mqtt_packet_connack_init` (386-402). -/
def connackInit (sessionPresent : Bool) (rc : UInt8) : ConnackPacket :=
  { header := { packetType := CONNACK, remainingLength := 1 + 1, flags := 0 }
    sessionPresent := sessionPresent, returnCode := rc }

/-- `aws_mqtt_packet_connack_encode` (404-431). -/
def connackEncode (b : Buf) (p : ConnackPacket) : Except Err Buf := do
  let b ← fixedHeaderEncode b p.header
  let b ← b.put [if p.sessionPresent then 1 else 0]
  b.put [p.returnCode]

/-- `aws_mqtt_packet_connack_decode` (433-461). -/
def connackDecode (cur : Bytes) : Except Err (ConnackPacket × Bytes) := do
  let (h, cur) ← fixedHeaderDecode cur
  let (f, cur) ← orShort (readU8 cur)
  let (rc, cur) ← orShort (readU8 cur)
  .ok ({ header := h, sessionPresent := f &&& 1 = 1, returnCode := rc }, cur)

/-! ### PUBLISH -/

/-- `struct aws_mqtt_packet_publish` (packets.h:95-104). -/
structure PublishPacket where
  header : FixedHeader
  packetId : UInt16
  topic : Bytes
  payload : Bytes
deriving DecidableEq, Repr

/-- `aws_mqtt_packet_publish_get_qos` (601-603). -/
def publishQos (p : PublishPacket) : Nat := ((p.header.flags >>> 1) &&& 3).toNat
/-- `aws_mqtt_packet_publish_get_dup` (593-595). -/
def publishDup (p : PublishPacket) : Bool := p.header.flags &&& 8 ≠ 0
/-- `aws_mqtt_packet_publish_get_retain` (605-607). -/
def publishRetain (p : PublishPacket) : Bool := p.header.flags &&& 1 ≠ 0
/-- `aws_mqtt_packet_publish_set_dup` (597-599). -/
def publishSetDup (p : PublishPacket) : PublishPacket :=
  { p with header := { p.header with flags := p.header.flags ||| 8 } }

/-- `aws_mqtt_packet_publish_init` (466-496). The fatal precondition `topic_name.len > 0` (476) is
the caller's obligation. -/
def publishInit (retain : Bool) (qos : Nat) (dup : Bool) (topic : Bytes) (id : UInt16) (payload : Bytes) :
    PublishPacket :=
  { header :=
      { packetType := PUBLISH
        remainingLength := sizeofEncodedBuffer topic + payload.length + (if qos > 0 then 2 else 0)  -- 481-485
        flags := UInt8.ofNat (retain.toNat ||| (qos &&& 3) <<< 1 ||| dup.toNat <<< 3) }             -- 488
    packetId := id, topic := topic, payload := payload }

/-- `aws_mqtt_packet_publish_encode_headers` (514-543). -/
def publishEncodeHeaders (b : Buf) (p : PublishPacket) : Except Err Buf := do
  let b ← fixedHeaderEncode b p.header
  let b ← encodeBuffer b p.topic
  if publishQos p > 0 then b.put (be16 p.packetId) else Except.ok b

/-- `aws_mqtt_packet_publish_encode` (498-512). -/
def publishEncode (b : Buf) (p : PublishPacket) : Except Err Buf := do
  let b ← publishEncodeHeaders b p
  b.put p.payload

/-- `aws_mqtt_packet_publish_decode` (545-591). -/
def publishDecode (cur : Bytes) : Except Err (PublishPacket × Bytes) := do
  let (h, cur) ← fixedHeaderDecode cur                                          -- 553
  let (topic, cur) ← decodeBuffer cur                                           -- 561
  let payloadSize := subSize h.remainingLength (sizeofEncodedBuffer topic)      -- 565
  let qos := ((h.flags >>> 1) &&& 3).toNat                                      -- 568
  if qos > 2 then .error .protocolError                                         -- 569-571
  else
    let (id, payloadSize, cur) ← (if qos > 0 then do                            -- 574-581
        let (id, cur) ← orShort (readBe16 cur)
        Except.ok (id, subSize payloadSize 2, cur)
      else Except.ok (0, payloadSize, cur))
    let (payload, cur) := advance payloadSize cur                               -- 585
    if payload.length ≠ payloadSize then .error .shortBuffer                    -- 586-588
    else .ok ({ header := h, packetId := id, topic := topic, payload := payload }, cur)

/-! ### SUBSCRIBE -/

/-- `struct aws_mqtt_subscription` (packets.h:24-29). -/
structure Subscription where
  filter : Bytes
  qos : Nat
deriving DecidableEq, Repr

/-- `struct aws_mqtt_packet_subscribe` (packets.h:107-117). -/
structure SubscribePacket where
  header : FixedHeader
  packetId : UInt16
  filters : List Subscription
deriving DecidableEq, Repr

/-- `aws_mqtt_packet_subscribe_init` (653-673). -/
def subscribeInit (id : UInt16) : SubscribePacket :=
  { header := { packetType := SUBSCRIBE, remainingLength := 2, flags := bit1Flags }
    packetId := id, filters := [] }

/-- `aws_mqtt_packet_subscribe_add_topic` (684-703). -/
def subscribeAddTopic (p : SubscribePacket) (filter : Bytes) (qos : Nat) : SubscribePacket :=
  { p with
    filters := p.filters ++ [{ filter := filter, qos := qos }]
    header := { p.header with
      remainingLength := p.header.remainingLength + (sizeofEncodedBuffer filter + 1) } }

/-- Loop of `aws_mqtt_packet_subscribe_encode` (727-740); line 734 ignores the result. -/
def subscribeEncodeLoop (b : Buf) : List Subscription → Except Err Buf
  | [] => .ok b
  | s :: rest => do
    let b := encodeBufferIgnoreResult b s.filter
    let b ← b.put [UInt8.ofNat (s.qos &&& 3)]
    subscribeEncodeLoop b rest

/-- `aws_mqtt_packet_subscribe_encode` (705-743). -/
def subscribeEncode (b : Buf) (p : SubscribePacket) : Except Err Buf := do
  let b ← fixedHeaderEncode b p.header
  let b ← b.put (be16 p.packetId)
  subscribeEncodeLoop b p.filters

theorem readBe16_length {cur rest : Bytes} {x : UInt16} (h : readBe16 cur = some (x, rest)) :
    cur.length = rest.length + 2 := by
  rw [be16_of_readBe16 h]; simp; omega

theorem readU8_length {cur rest : Bytes} {x : UInt8} (h : readU8 cur = some (x, rest)) :
    cur.length = rest.length + 1 := by
  cases cur <;> simp [readU8] at h; simp [h.2]

theorem decodeBuffer_length {cur s rest : Bytes} (h : decodeBuffer cur = .ok (s, rest)) :
    cur.length = rest.length + s.length + 2 := by
  unfold decodeBuffer at h
  cases hr : readBe16 cur with
  | none => simp [hr, orShort, bind, Except.bind] at h
  | some r =>
    obtain ⟨len, cur'⟩ := r
    have := readBe16_length hr
    simp only [hr, orShort, bind, Except.bind, Except.ok.injEq, advance] at h
    split at h <;> simp only [Prod.mk.injEq] at h <;> obtain ⟨rfl, rfl⟩ := h <;> simp <;> omega

/-- Loop of `aws_mqtt_packet_subscribe_decode` (770-796). -/
def subscribeDecodeLoop (remaining : Nat) (cur : Bytes) : Except Err (List Subscription × Bytes) :=
  if remaining = 0 then .ok ([], cur)                                             -- 771
  else match _h1 : decodeBuffer cur with                                          -- 777
    | .error e => .error e
    | .ok (filter, cur1) =>
      match _h2 : readU8 cur1 with                                                -- 781-784
      | none => .error .shortBuffer
      | some (eos, cur2) =>
        if eos >>> 2 ≠ 0 then .error .invalidReservedBits                         -- 785-787
        else if eos = 3 then .error .invalidQos                                   -- 788-790
        else match subscribeDecodeLoop (subSize remaining (sizeofEncodedBuffer filter + 1)) cur2 with  -- 795
          | .error e => .error e
          | .ok (rest, cur3) => .ok ({ filter := filter, qos := (eos &&& 3).toNat } :: rest, cur3)
termination_by cur.length
decreasing_by
  have := decodeBuffer_length _h1
  have := readU8_length _h2
  omega

/-- `aws_mqtt_packet_subscribe_decode` (745-799). -/
def subscribeDecode (cur : Bytes) : Except Err (SubscribePacket × Bytes) := do
  let (h, cur) ← fixedHeaderDecode cur
  if h.remainingLength < 2 then .error .invalidRemainingLength
  else
    let (id, cur) ← orShort (readBe16 cur)
    let (fs, cur) ← subscribeDecodeLoop (subSize h.remainingLength 2) cur
    .ok ({ header := h, packetId := id, filters := fs }, cur)

/-! ### SUBACK -/

/-- `struct aws_mqtt_packet_suback` (packets.h:50-60). -/
structure SubackPacket where
  header : FixedHeader
  packetId : UInt16
  returnCodes : List UInt8
deriving DecidableEq, Repr

/-- `s_return_code_check` (833-839); `AWS_MQTT_QOS_FAILURE = 0x80`. -/
def returnCodeCheck (rc : UInt8) : Bool := rc = 0x80 || rc = 0 || rc = 1 || rc = 2

/-- `aws_mqtt_packet_suback_init` (804-822). -/
def subackInit (id : UInt16) : SubackPacket :=
  { header := { packetType := SUBACK, remainingLength := 2, flags := 0 }, packetId := id, returnCodes := [] }

/-- `aws_mqtt_packet_suback_add_return_code` (841-857). -/
def subackAddReturnCode (p : SubackPacket) (rc : UInt8) : Except Err SubackPacket :=
  if !returnCodeCheck rc then .error .protocolError
  else .ok { p with
    returnCodes := p.returnCodes ++ [rc]
    header := { p.header with remainingLength := p.header.remainingLength + 1 } }

/-- Loop of `aws_mqtt_packet_suback_encode` (884-893). -/
def subackEncodeLoop (b : Buf) : List UInt8 → Except Err Buf
  | [] => .ok b
  | rc :: rest => do
    let b ← b.put [rc]
    subackEncodeLoop b rest

/-- `aws_mqtt_packet_suback_encode` (859-895). -/
def subackEncode (b : Buf) (p : SubackPacket) : Except Err Buf := do
  let b ← fixedHeaderEncode b p.header
  let b ← b.put (be16 p.packetId)
  subackEncodeLoop b p.returnCodes

/-- Loop of `aws_mqtt_packet_suback_decode` (927-941). `remaining` is a `size_t` that starts at a
wrapped value when the header announced fewer than two bytes; the loop still ends because every
round consumes a byte. -/
def subackDecodeLoop : Nat → Bytes → Except Err (List UInt8 × Bytes)
  | 0, cur => .ok ([], cur)                                                     -- 928
  | _ + 1, [] => .error .shortBuffer                                            -- 931-933
  | remaining + 1, rc :: cur =>
    if !returnCodeCheck rc then .error .protocolError                           -- 934-936
    else match subackDecodeLoop remaining cur with                              -- 938-940
      | .error e => .error e
      | .ok (rest, cur) => .ok (rc :: rest, cur)

/-- `aws_mqtt_packet_suback_decode` (897-944). -/
def subackDecode (cur : Bytes) : Except Err (SubackPacket × Bytes) := do
  let (h, cur) ← fixedHeaderDecode cur
  if h.flags ≠ (if packetHasFlags h.packetType then bit1Flags else 0) then .error .invalidReservedBits
  else
    let (id, cur) ← orShort (readBe16 cur)
    let (rcs, cur) ← subackDecodeLoop (subSize h.remainingLength 2) cur
    .ok ({ header := h, packetId := id, returnCodes := rcs }, cur)

/-! ### UNSUBSCRIBE -/

/-- `struct aws_mqtt_packet_unsubscribe` (packets.h:120-130). -/
structure UnsubscribePacket where
  header : FixedHeader
  packetId : UInt16
  filters : List Bytes
deriving DecidableEq, Repr

/-- `aws_mqtt_packet_unsubscribe_init` (949-970). -/
def unsubscribeInit (id : UInt16) : UnsubscribePacket :=
  { header := { packetType := UNSUBSCRIBE, remainingLength := 2, flags := bit1Flags }
    packetId := id, filters := [] }

/-- `aws_mqtt_packet_unsubscribe_add_topic` (981-996). -/
def unsubscribeAddTopic (p : UnsubscribePacket) (filter : Bytes) : UnsubscribePacket :=
  { p with
    filters := p.filters ++ [filter]
    header := { p.header with
      remainingLength := p.header.remainingLength + sizeofEncodedBuffer filter } }

/-- `aws_mqtt_packet_unsubscribe_encode` (998-1031); line 1027 ignores the result. -/
def unsubscribeEncode (b : Buf) (p : UnsubscribePacket) : Except Err Buf := do
  let b ← fixedHeaderEncode b p.header
  let b ← b.put (be16 p.packetId)
  .ok (p.filters.foldl encodeBufferIgnoreResult b)

/-- Loop of `aws_mqtt_packet_unsubscribe_decode` (1058-1070). -/
def unsubscribeDecodeLoop (remaining : Nat) (cur : Bytes) : Except Err (List Bytes × Bytes) :=
  if remaining = 0 then .ok ([], cur)
  else match _h1 : decodeBuffer cur with
    | .error e => .error e
    | .ok (filter, cur1) =>
      match unsubscribeDecodeLoop (subSize remaining (sizeofEncodedBuffer filter)) cur1 with
      | .error e => .error e
      | .ok (rest, cur2) => .ok (filter :: rest, cur2)
termination_by cur.length
decreasing_by
  have := decodeBuffer_length _h1
  omega

/-- `aws_mqtt_packet_unsubscribe_decode` (1033-1073). -/
def unsubscribeDecode (cur : Bytes) : Except Err (UnsubscribePacket × Bytes) := do
  let (h, cur) ← fixedHeaderDecode cur
  if h.remainingLength < 2 then .error .invalidRemainingLength
  else
    let (id, cur) ← orShort (readBe16 cur)
    let (fs, cur) ← unsubscribeDecodeLoop (subSize h.remainingLength 2) cur
    .ok ({ header := h, packetId := id, filters := fs }, cur)

/-! ### PINGREQ, PINGRESP, DISCONNECT -/

/-- `s_connection_init` (1088-1094) with `aws_mqtt_packet_pingreq_init`, `_pingresp_init`,
`_disconnect_init` (1096-1115). -/
def connectionInit (type : Nat) : FixedHeader := { packetType := type, remainingLength := 0, flags := 0 }
def pingreqInit : FixedHeader := connectionInit PINGREQ
def pingrespInit : FixedHeader := connectionInit PINGRESP
def disconnectInit : FixedHeader := connectionInit DISCONNECT

/-- `aws_mqtt_packet_connection_encode` (1117-1130). -/
def connectionEncode (b : Buf) (p : FixedHeader) : Except Err Buf := fixedHeaderEncode b p

/-- `aws_mqtt_packet_connection_decode` (1132-1145). -/
def connectionDecode (cur : Bytes) : Except Err (FixedHeader × Bytes) := fixedHeaderDecode cur

end Mqtt
