import Verif.Basic

/-!
Specification of MQTT topic names and filters (MQTT 4.7) and of MQTT text (MQTT5 1.5.4, 3.1.1 1.5.3),
independent of the code.
-/
namespace Mqtt.Spec

/-- Unicode scalar value: a code point that is not a surrogate. -/
def Scalar (c : Nat) : Prop := c < 0x110000 ∧ ¬ (0xD800 ≤ c ∧ c ≤ 0xDFFF)

/-- UTF-8 encoding of a code point (RFC 3629). -/
def utf8 (c : Nat) : Bytes :=
  if c < 0x80 then [UInt8.ofNat c]
  else if c < 0x800 then [UInt8.ofNat (0xC0 + c / 64), UInt8.ofNat (0x80 + c % 64)]
  else if c < 0x10000 then
    [UInt8.ofNat (0xE0 + c / 4096), UInt8.ofNat (0x80 + c / 64 % 64), UInt8.ofNat (0x80 + c % 64)]
  else [UInt8.ofNat (0xF0 + c / 262144), UInt8.ofNat (0x80 + c / 4096 % 64),
        UInt8.ofNat (0x80 + c / 64 % 64), UInt8.ofNat (0x80 + c % 64)]

/-- Control characters and non-characters, which MQTT lets a receiver refuse (MQTT 1.5.4). -/
def Disallowed (c : Nat) : Prop :=
  c ≤ 0x1F ∨ (0x7F ≤ c ∧ c ≤ 0x9F) ∨ c % 0x10000 = 0xFFFE ∨ c % 0x10000 = 0xFFFF ∨ (0xFDD0 ≤ c ∧ c ≤ 0xFDEF)

/-- `bs` is the UTF-8 encoding of a string of allowed characters. -/
def Text (bs : Bytes) : Prop := ∃ cps : List Nat, (∀ c ∈ cps, Scalar c ∧ ¬ Disallowed c) ∧ bs = cps.flatMap utf8

/-- `ls` are the levels of `t`: `t` is `l1/l2/.../ln` and no level contains a slash. -/
def Levels (t : Bytes) (ls : List Bytes) : Prop :=
  ls ≠ [] ∧ (∀ l ∈ ls, (47 : UInt8) ∉ l) ∧ t = (ls.intersperse [47]).flatten

/-- A legal topic name: 1 to 65535 bytes of text without wildcard characters. -/
def TopicName (t : Bytes) : Prop := 1 ≤ t.length ∧ t.length ≤ 65535 ∧ Text t ∧ (43 : UInt8) ∉ t ∧ (35 : UInt8) ∉ t

/-- A legal topic filter: a level containing `+` is `+`, and `#` is only the whole last level. -/
def TopicFilter (t : Bytes) : Prop :=
  1 ≤ t.length ∧ t.length ≤ 65535 ∧ Text t ∧
  ∃ ls, Levels t ls ∧ (∀ l ∈ ls, (43 : UInt8) ∈ l → l = [43]) ∧
    ∀ pre l post, ls = pre ++ l :: post → (35 : UInt8) ∈ l → l = [35] ∧ post = []

/-- MQTT matching of filter levels against topic levels (MQTT 4.7.1): `+` matches one level, `#` the
parent and everything below, other levels match themselves. -/
def Matches : List Bytes → List Bytes → Prop
  | [[35]], _ => True
  | [], [] => True
  | f :: fs, t :: ts => (f = [43] ∨ f = t) ∧ Matches fs ts
  | _, _ => False

end Mqtt.Spec
