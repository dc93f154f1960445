import Verif.Basic

/-!
MQTT 5 variable length integers: mqtt5_encoder.c:19-56 and mqtt5_decoder.c:72-108.
-/
namespace Mqtt.V5

/-- `AWS_MQTT5_MAXIMUM_VARIABLE_LENGTH_INTEGER` (include/aws/mqtt/private/v5/mqtt5_utils.h:17). -/
scoped notation "maxVli" => 268435455

/-- The loop of `aws_mqtt5_encode_variable_length_integer` (mqtt5_encoder.c:26-35) as the bytes written. -/
def vliBytes (value : Nat) : Bytes :=
  if value / 128 = 0 then [UInt8.ofNat (value % 128)]
  else (UInt8.ofNat (value % 128) ||| 128) :: vliBytes (value / 128)
termination_by value
decreasing_by omega

/-- `aws_mqtt5_encode_variable_length_integer` (mqtt5_encoder.c:19-38). The bytes are written one at a
time; on failure the bytes already written stay in the buffer, but every caller gives up then. -/
def encodeVli (b : Buf) (value : Nat) : Except Err Buf :=
  if value > maxVli then .error .invalidArgument                                   -- 22-24
  else b.put (vliBytes value)

/-- `aws_mqtt5_get_variable_length_encode_size` (mqtt5_encoder.c:40-56). -/
def vliSize (value : Nat) : Option Nat :=
  if value > maxVli then none
  else if value < 128 then some 1
  else if value < 16384 then some 2
  else if value < 2097152 then some 3
  else some 4

/-- `enum aws_mqtt5_decode_result_type` with the decoded value and the advanced cursor. -/
inductive VliResult where
  | more
  | error
  | ok (value : Nat) (rest : Bytes)
deriving DecidableEq, Repr

/-- The loop of `aws_mqtt5_decode_vli` (mqtt5_decoder.c:83-102); the first argument is the number of
iterations left. -/
def decodeVliLoop : Nat → Nat → Nat → Bytes → VliResult
  | 0, _, _, _ => .error                                                           -- 98-102
  | _ + 1, _, _, [] => .more                                                       -- 85-87
  | k + 1, shift, value, b :: rest =>
    let value := value ||| ((b &&& 0x7F).toNat <<< shift)                          -- 89
    if b &&& 0x80 = 0 then .ok value rest                                          -- 92-95
    else decodeVliLoop k (shift + 7) value rest

/-- `aws_mqtt5_decode_vli` (mqtt5_decoder.c:75-108). -/
def decodeVli (cur : Bytes) : VliResult := decodeVliLoop 4 0 0 cur

end Mqtt.V5
