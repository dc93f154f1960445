import Verif.Basic

/-!
Model of /repo/source/fixed_header.c (MQTT 3.1.1 fixed header).
-/
namespace Mqtt

/-- `enum aws_mqtt_packet_type` (include/aws/mqtt/private/fixed_header.h and
include/aws/mqtt/mqtt.h).  Kept numeric because the code stores the raw nibble
(`aws_mqtt_get_packet_type`, fixed_header.c:62-64). -/
def CONNECT : Nat := 1
def CONNACK : Nat := 2
def PUBLISH : Nat := 3
def PUBACK : Nat := 4
def PUBREC : Nat := 5
def PUBREL : Nat := 6
def PUBCOMP : Nat := 7
def SUBSCRIBE : Nat := 8
def SUBACK : Nat := 9
def UNSUBSCRIBE : Nat := 10
def UNSUBACK : Nat := 11
def PINGREQ : Nat := 12
def PINGRESP : Nat := 13
def DISCONNECT : Nat := 14

/-- `struct aws_mqtt_fixed_header` (include/aws/mqtt/private/fixed_header.h). -/
structure FixedHeader where
  packetType : Nat
  remainingLength : Nat
  flags : UInt8
deriving DecidableEq, Repr

/-- The loop of `s_encode_remaining_length` (fixed_header.c:14-31) as the list of bytes it writes;
line 20: digit, 21: division, 22-24: continuation bit, 28: loop test. -/
def encodeRemainingLengthBytes (n : Nat) : Bytes :=
  if n / 128 = 0 then [UInt8.ofNat (n % 128)]
  else (UInt8.ofNat (n % 128) ||| 128) :: encodeRemainingLengthBytes (n / 128)
termination_by n
decreasing_by omega

/-- `s_encode_remaining_length` (fixed_header.c:14-31). The bytes are written one at a time by the
C code; a failing write aborts the whole encoding with SHORT_BUFFER, so one all-or-nothing write
has the same result. -/
def encodeRemainingLength (b : Buf) (n : Nat) : Except Err Buf :=
  b.put (encodeRemainingLengthBytes n)

/-- Loop of `aws_mqtt311_decode_remaining_length` (fixed_header.c:40-56). -/
def decodeRemainingLengthLoop (multiplier acc : Nat) : Bytes → Except Err (Nat × Bytes)
  | [] => .error .shortBuffer                                             -- 42-44
  | b :: rest =>
    let acc := acc + (b &&& 127).toNat * multiplier                       -- 46
    let multiplier := multiplier * 128                                    -- 47
    if b &&& 128 = 0 then .ok (acc, rest)                                 -- 49-51
    else if multiplier > 128 * 128 * 128 then .error .invalidRemainingLength -- 52-55
    else decodeRemainingLengthLoop multiplier acc rest

/-- `aws_mqtt311_decode_remaining_length` (fixed_header.c:33-60). -/
def decodeRemainingLength (cur : Bytes) : Except Err (Nat × Bytes) :=
  decodeRemainingLengthLoop 1 0 cur

/-- `aws_mqtt_packet_has_flags` (fixed_header.c:66-92). -/
def packetHasFlags (packetType : Nat) : Bool :=
  packetType = SUBSCRIBE || packetType = UNSUBSCRIBE || packetType = PUBLISH || packetType = PUBREL

/-- First byte of the fixed header (fixed_header.c:105). -/
def fixedHeaderByte (h : FixedHeader) : UInt8 :=
  UInt8.ofNat (h.packetType <<< 4 ||| (h.flags &&& 0xF).toNat)

/-- `aws_mqtt_fixed_header_encode` (fixed_header.c:94-116). -/
def fixedHeaderEncode (b : Buf) (h : FixedHeader) : Except Err Buf := do
  if !packetHasFlags h.packetType && h.flags ≠ 0 then .error .invalidReservedBits
  else
    let b ← b.put [fixedHeaderByte h]
    encodeRemainingLength b h.remainingLength

/-- `aws_mqtt_fixed_header_decode` (fixed_header.c:118-145). -/
def fixedHeaderDecode (cur : Bytes) : Except Err (FixedHeader × Bytes) := do
  let (b1, cur) ← orShort (readU8 cur)                                    -- 124-127
  let type := (b1 >>> 4).toNat                                            -- 128
  let flags := b1 &&& 0xF                                                 -- 129
  let (rl, cur) ← decodeRemainingLength cur                               -- 132-134
  if cur.length < rl then .error .shortBuffer                             -- 135-137
  else if !packetHasFlags type && flags ≠ 0 then .error .invalidReservedBits -- 140-142
  else .ok ({ packetType := type, remainingLength := rl, flags := flags }, cur)

end Mqtt
