import Verif.Basic

/-!
Text and topics: `aws_mqtt_validate_utf8_text` and `s_is_valid_topic` (/repo/source/mqtt.c), on top of
two aws-c-common functions that are not in /repo and whose behaviour is assumed:
`aws_byte_cursor_next_split` (`split`) and `aws_decode_utf8` (`utf8Decode`).
-/
namespace Mqtt

/-- All results of `aws_byte_cursor_next_split` on a non-NULL input: cut at every `c`; an empty input
gives one empty piece. -/
def split (c : UInt8) : Bytes → List Bytes
  | [] => [[]]
  | b :: bs =>
    if b = c then [] :: split c bs
    else match split c bs with
      | [] => [[b]]                      -- never: `split` is not empty
      | l :: ls => (b :: l) :: ls

/-- `aws_decode_utf8` (aws-c-common, encoding.c): byte at a time; `rem` continuation bytes still
expected, `cp` the bits so far, `min` the smallest code point allowed for this length. Gives the code
points passed to `on_codepoint`, or `none` for malformed input. -/
def utf8Go : Nat → Nat → Nat → Bytes → Option (List Nat)
  | rem, _, _, [] => if rem = 0 then some [] else none
  | 0, _, _, b :: bs =>
    if b.toNat < 0x80 then (utf8Go 0 0 0 bs).map (b.toNat :: ·)
    else if b.toNat < 0xC0 then none
    else if b.toNat < 0xE0 then utf8Go 1 0x80 (b.toNat - 0xC0) bs
    else if b.toNat < 0xF0 then utf8Go 2 0x800 (b.toNat - 0xE0) bs
    else if b.toNat < 0xF8 then utf8Go 3 0x10000 (b.toNat - 0xF0) bs
    else none
  | rem + 1, min, cp, b :: bs =>
    if b.toNat < 0x80 ∨ 0xC0 ≤ b.toNat then none
    else if rem ≠ 0 then utf8Go rem min (cp * 64 + (b.toNat - 0x80)) bs
    else if cp * 64 + (b.toNat - 0x80) < min ∨ 0x10FFFF < cp * 64 + (b.toNat - 0x80) ∨
        (0xD800 ≤ cp * 64 + (b.toNat - 0x80) ∧ cp * 64 + (b.toNat - 0x80) ≤ 0xDFFF) then none
    else (utf8Go 0 0 0 bs).map ((cp * 64 + (b.toNat - 0x80)) :: ·)

/-- `aws_mqtt_utf8_decoder` (mqtt.c:338-361): true when it returns success. -/
def codepointOk (cp : Nat) : Bool :=
  if cp ≤ 0x1F then false                                          -- 343-345
  else if cp ≥ 0x7F ∧ cp ≤ 0x9F then false                         -- 348-350
  else if cp &&& 0xFFFF ≥ 0xFFFE then false                        -- 353-355
  else if cp ≥ 0xFDD0 ∧ cp ≤ 0xFDEF then false                     -- 356-358
  else true

/-- `aws_mqtt_validate_utf8_text` (mqtt.c:367-369). -/
def validUtf8Text (text : Bytes) : Bool :=
  match utf8Go 0 0 0 text with
  | none => false
  | some cps => cps.all codepointOk

/-- The loop of `s_is_valid_topic` (mqtt.c:44-80) over the parts; `sawHash` is `saw_hash`. -/
def validTopicParts (isFilter : Bool) (sawHash : Bool) : List Bytes → Bool
  | [] => true                                                      -- 82
  | part :: rest =>
    if sawHash then false                                           -- 46-49
    else if part.length = 0 then validTopicParts isFilter sawHash rest           -- 51-54
    else if 43 ∈ part ∧ (!isFilter ∨ part.length > 1) then false     -- 57-66
    else if 35 ∈ part then                                          -- 69
      if !isFilter ∨ part.length > 1 then false                     -- 70-77
      else validTopicParts isFilter true rest                       -- 78
    else validTopicParts isFilter sawHash rest

/-- `s_is_valid_topic` (mqtt.c:16-83) for a non-NULL cursor. -/
def isValidTopicAux (topic : Bytes) (isFilter : Bool) : Bool :=
  if topic.length = 0 then false                                    -- 22-24
  else if !validUtf8Text topic then false                           -- 26-28
  else if 0 ∈ topic then false                                      -- 31-33
  else if topic.length > 65535 then false                           -- 36-38
  else validTopicParts isFilter false (split 47 topic)              -- 40-82

/-- `aws_mqtt_is_valid_topic` (mqtt.c:85-88). -/
def isValidTopic (topic : Bytes) : Bool := isValidTopicAux topic false
/-- `aws_mqtt_is_valid_topic_filter` (mqtt.c:89-92). -/
def isValidTopicFilter (filter : Bytes) : Bool := isValidTopicAux filter true

end Mqtt
