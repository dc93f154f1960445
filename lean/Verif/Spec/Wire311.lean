import Verif.Basic

/-!
Specification of the MQTT 3.1.1 wire format (OASIS standard, chapters 2 and 3), written
independently of the code under verification.
-/
namespace Mqtt.Spec

/-- `Varint n bs`: `bs` is the shortest base-128 encoding of `n` as MQTT 2.2.3 describes it. -/
inductive Varint : Nat → Bytes → Prop
  | last (b : UInt8) (h : b.toNat < 128) : Varint b.toNat [b]
  | more (b : UInt8) (q : Nat) (bs : Bytes) (hb : 128 ≤ b.toNat) (hq : 0 < q) (h : Varint q bs) :
      Varint (b.toNat - 128 + 128 * q) (b :: bs)

/-- A control packet: type and flag nibbles, length of the body, body (MQTT 2.2). -/
def IsFrame (type flags : Nat) (body bytes : Bytes) : Prop :=
  ∃ vs, Varint body.length vs ∧ bytes = UInt8.ofNat (16 * type + flags) :: vs ++ body

/-- Value of a remaining-length field, MQTT 2.2.3: sum of the low seven bits times 128^position. -/
def fieldValue (bs : Bytes) : Nat :=
  (bs.mapIdx fun i b => (b.toNat % 128) * 128 ^ i).sum

/-- `vs` is a remaining-length field a receiver must accept as `n`: one to four bytes, all but the
last with the continuation bit (not necessarily the shortest encoding). -/
def LengthField (n : Nat) (vs : Bytes) : Prop :=
  ∃ pre last, vs = pre ++ [last] ∧ pre.length ≤ 3 ∧ (∀ b ∈ pre, 128 ≤ b.toNat) ∧ last.toNat < 128 ∧
    n = fieldValue vs

/-- `bytes` is exactly one control packet with first byte `b1` and the given body. -/
def IsReceivedFrame (b1 : UInt8) (body bytes : Bytes) : Prop :=
  ∃ vs, LengthField body.length vs ∧ bytes = b1 :: vs ++ body

/-- Two-byte length prefixed string (MQTT 1.5.3). -/
def str (s : Bytes) : Bytes := UInt8.ofNat (s.length / 256) :: UInt8.ofNat (s.length % 256) :: s

/-- 16-bit big-endian integer (MQTT 1.5.2). -/
def u16 (x : UInt16) : Bytes := [UInt8.ofNat (x.toNat / 256), UInt8.ofNat (x.toNat % 256)]

/-- What a client puts into a CONNECT packet (MQTT 3.1). -/
structure Will where
  topic : Bytes
  message : Bytes
  qos : Nat
  retain : Bool
deriving DecidableEq, Repr

structure Connect where
  clientId : Bytes
  cleanSession : Bool
  keepAlive : UInt16
  will : Option Will
  username : Option Bytes
  password : Option Bytes
deriving DecidableEq, Repr

/-- Connect flags (MQTT 3.1.2.3): bit 1 clean session, 2 will, 3-4 will QoS, 5 will retain,
6 password, 7 user name. -/
def Connect.flags (c : Connect) : Nat :=
  (if c.cleanSession then 2 else 0) +
  (match c.will with
    | none => 0
    | some w => 4 + 8 * w.qos + (if w.retain then 32 else 0)) +
  (if c.password.isSome then 64 else 0) + (if c.username.isSome then 128 else 0)

/-- An optional string. -/
def optStr : Option Bytes → Bytes
  | none => []
  | some s => str s

/-- Will part of the CONNECT payload (MQTT 3.1.3): topic, then message. -/
def optWill : Option Will → Bytes
  | none => []
  | some w => str w.topic ++ str w.message

/-- Body of a CONNECT packet (MQTT 3.1.2, 3.1.3). -/
def Connect.body (c : Connect) : Bytes :=
  str [77, 81, 84, 84] ++ [4, UInt8.ofNat c.flags] ++ u16 c.keepAlive ++ str c.clientId ++
  optWill c.will ++ optStr c.username ++ optStr c.password

/-- Body of a PUBLISH packet (MQTT 3.3): topic, packet id iff QoS > 0, payload. -/
def publishBody (topic : Bytes) (qos : Nat) (id : UInt16) (payload : Bytes) : Bytes :=
  str topic ++ (if qos = 0 then [] else u16 id) ++ payload

/-- Flags of a PUBLISH packet (MQTT 3.3.1): bit 0 retain, 1-2 QoS, 3 dup. -/
def publishFlags (retain : Bool) (qos : Nat) (dup : Bool) : Nat :=
  (if retain then 1 else 0) + 2 * qos + (if dup then 8 else 0)

/-- Body of a SUBSCRIBE packet (MQTT 3.8). -/
def subscribeBody (id : UInt16) (fs : List (Bytes × Nat)) : Bytes :=
  u16 id ++ (fs.map fun f => str f.1 ++ [UInt8.ofNat f.2]).flatten

/-- Body of an UNSUBSCRIBE packet (MQTT 3.10). -/
def unsubscribeBody (id : UInt16) (fs : List Bytes) : Bytes :=
  u16 id ++ (fs.map str).flatten

end Mqtt.Spec
