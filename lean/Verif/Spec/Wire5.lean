import Verif.Basic

/-!
The MQTT 5 wire format (OASIS standard, chapters 1.5, 2 and 3), written independently of the code: how a
receiver reads the packets a client sends, and how a server writes the packets it sends.
-/
namespace Mqtt.Spec5

/-! ### Reading (sections 1.5 and 2) -/

def byte : Bytes → Option (Nat × Bytes)
  | [] => none
  | b :: r => some (b.toNat, r)

/-- Two Byte Integer (1.5.2). -/
def two : Bytes → Option (Nat × Bytes)
  | a :: b :: r => some (a.toNat * 256 + b.toNat, r)
  | _ => none

/-- Four Byte Integer (1.5.3). -/
def four : Bytes → Option (Nat × Bytes)
  | a :: b :: c :: d :: r =>
    some (a.toNat * 16777216 + b.toNat * 65536 + c.toNat * 256 + d.toNat, r)
  | _ => none

/-- Variable Byte Integer (1.5.5) of at most `k` bytes, least significant digit first. -/
def vbiOf : Nat → Bytes → Option (Nat × Bytes)
  | 0, _ => none
  | _ + 1, [] => none
  | k + 1, b :: r =>
    if b.toNat < 128 then some (b.toNat, r)
    else match vbiOf k r with
      | none => none
      | some (n, r) => some (b.toNat - 128 + 128 * n, r)

def vbi (bs : Bytes) : Option (Nat × Bytes) := vbiOf 4 bs

/-- The next `n` bytes. -/
def raw (n : Nat) (bs : Bytes) : Option (Bytes × Bytes) :=
  if n ≤ bs.length then some (bs.take n, bs.drop n) else none

/-- UTF-8 Encoded String (1.5.4) or Binary Data (1.5.6): two byte length, then the bytes. -/
def text (bs : Bytes) : Option (Bytes × Bytes) := do
  let (n, r) ← two bs
  raw n r

/-- Representation of a property value (1.5). -/
inductive Kind where
  | byte | two | four | vbi | text | pair
deriving DecidableEq, Repr

/-- Table 2-4: property identifiers and the representation of their values. -/
def kind : Nat → Option Kind
  | 1 => some .byte      -- Payload Format Indicator
  | 2 => some .four      -- Message Expiry Interval
  | 3 => some .text      -- Content Type
  | 8 => some .text      -- Response Topic
  | 9 => some .text      -- Correlation Data
  | 11 => some .vbi      -- Subscription Identifier
  | 17 => some .four     -- Session Expiry Interval
  | 18 => some .text     -- Assigned Client Identifier
  | 19 => some .two      -- Server Keep Alive
  | 21 => some .text     -- Authentication Method
  | 22 => some .text     -- Authentication Data
  | 23 => some .byte     -- Request Problem Information
  | 24 => some .four     -- Will Delay Interval
  | 25 => some .byte     -- Request Response Information
  | 26 => some .text     -- Response Information
  | 28 => some .text     -- Server Reference
  | 31 => some .text     -- Reason String
  | 33 => some .two      -- Receive Maximum
  | 34 => some .two      -- Topic Alias Maximum
  | 35 => some .two      -- Topic Alias
  | 36 => some .byte     -- Maximum QoS
  | 37 => some .byte     -- Retain Available
  | 38 => some .pair     -- User Property
  | 39 => some .four     -- Maximum Packet Size
  | 40 => some .byte     -- Wildcard Subscription Available
  | 41 => some .byte     -- Subscription Identifier Available
  | 42 => some .byte     -- Shared Subscription Available
  | _ => none

inductive Value where
  | num (n : Nat)
  | text (s : Bytes)
  | pair (k v : Bytes)
deriving DecidableEq, Repr

/-- A property: identifier and value. -/
structure Property where
  id : Nat
  value : Value
deriving DecidableEq, Repr

def value (k : Kind) (bs : Bytes) : Option (Value × Bytes) :=
  match k with
  | .byte => (byte bs).map fun x => (.num x.1, x.2)
  | .two => (two bs).map fun x => (.num x.1, x.2)
  | .four => (four bs).map fun x => (.num x.1, x.2)
  | .vbi => (vbi bs).map fun x => (.num x.1, x.2)
  | .text => (text bs).map fun x => (.text x.1, x.2)
  | .pair => do
    let (k, r) ← text bs
    let (v, r) ← text r
    some (.pair k v, r)

def property (bs : Bytes) : Option (Property × Bytes) := do
  let (id, r) ← byte bs
  let k ← kind id
  let (v, r) ← value k r
  some ({ id, value := v }, r)

/-- A sequence of properties filling the given bytes; the first argument bounds their number. -/
def propertiesOf : Nat → Bytes → Option (List Property)
  | _, [] => some []
  | 0, _ :: _ => none
  | n + 1, bs => do
    let (p, r) ← property bs
    let ps ← propertiesOf n r
    some (p :: ps)

/-- Property Length and properties (2.2.2). -/
def properties (bs : Bytes) : Option (List Property × Bytes) := do
  let (n, r) ← vbi bs
  let (sec, r) ← raw n r
  let ps ← propertiesOf sec.length sec
  some (ps, r)

/-! ### Packets a client sends (chapter 3) -/

structure Will where
  qos : Nat
  retain : Bool
  props : List Property
  topic : Bytes
  payload : Bytes
deriving DecidableEq, Repr

structure Connect where
  cleanStart : Bool
  keepAlive : Nat
  props : List Property
  clientId : Bytes
  will : Option Will
  username : Option Bytes
  password : Option Bytes
deriving DecidableEq, Repr

structure Publish where
  dup : Bool
  qos : Nat
  retain : Bool
  topic : Bytes
  packetId : Option Nat
  props : List Property
  payload : Bytes
deriving DecidableEq, Repr

structure Filter where
  filter : Bytes
  qos : Nat
  noLocal : Bool
  retainAsPublished : Bool
  retainHandling : Nat
deriving DecidableEq, Repr

inductive Packet where
  | connect (c : Connect)
  | publish (p : Publish)
  | puback (id reason : Nat) (props : List Property)
  | subscribe (id : Nat) (props : List Property) (filters : List Filter)
  | unsubscribe (id : Nat) (props : List Property) (filters : List Bytes)
  | pingreq
  | disconnect (reason : Nat) (props : List Property)
deriving DecidableEq, Repr

/-- An optional part, present iff the flag is set. -/
def optional {α : Type} (present : Bool) (read : Bytes → Option (α × Bytes)) (bs : Bytes) :
    Option (Option α × Bytes) :=
  if present then (read bs).map fun x => (some x.1, x.2) else some (none, bs)

def will (flags : Nat) (bs : Bytes) : Option (Will × Bytes) := do
  let (props, r) ← properties bs
  let (topic, r) ← text r
  let (payload, r) ← text r
  some ({ qos := flags / 8 % 4, retain := flags / 32 % 2 == 1, props, topic, payload }, r)

/-- 3.1: protocol name, version, flags, keep alive, properties; client id, will, user name, password. -/
def connect (bs : Bytes) : Option Packet := do
  let (name, r) ← text bs
  let (version, r) ← byte r
  let (flags, r) ← byte r
  let (keepAlive, r) ← two r
  let (props, r) ← properties r
  let (clientId, r) ← text r
  let (will, r) ← optional (flags / 4 % 2 == 1) (will flags) r
  let (username, r) ← optional (flags / 128 % 2 == 1) text r
  let (password, r) ← optional (flags / 64 % 2 == 1) text r
  if name = [77, 81, 84, 84] ∧ version = 5 ∧ flags % 2 = 0 ∧ r = [] then
    some (.connect { cleanStart := flags / 2 % 2 == 1, keepAlive, props, clientId, will, username, password })
  else none

/-- 3.3: topic, packet identifier iff QoS is not 0, properties, payload. -/
def publish (flags : Nat) (bs : Bytes) : Option Packet := do
  let qos := flags / 2 % 4
  let (topic, r) ← text bs
  let (packetId, r) ← optional (qos != 0) two r
  let (props, r) ← properties r
  if qos = 3 then none
  else some (.publish { dup := flags / 8 == 1, qos, retain := flags % 2 == 1, topic, packetId, props, payload := r })

/-- 3.4: packet identifier, reason code (0 if left out), properties (empty if left out). -/
def puback (bs : Bytes) : Option Packet := do
  let (id, r) ← two bs
  if r = [] then some (.puback id 0 [])
  else
    let (reason, r) ← byte r
    if r = [] then some (.puback id reason [])
    else
      let (props, r) ← properties r
      if r = [] then some (.puback id reason props) else none

def filter (bs : Bytes) : Option (Filter × Bytes) := do
  let (f, r) ← text bs
  let (o, r) ← byte r
  if o / 64 = 0 then
    some ({ filter := f, qos := o % 4, noLocal := o / 4 % 2 == 1, retainAsPublished := o / 8 % 2 == 1,
            retainHandling := o / 16 % 4 }, r)
  else none

/-- Items filling the given bytes; the first argument bounds their number. -/
def many {α : Type} (read : Bytes → Option (α × Bytes)) : Nat → Bytes → Option (List α)
  | _, [] => some []
  | 0, _ :: _ => none
  | n + 1, bs => do
    let (x, r) ← read bs
    let xs ← many read n r
    some (x :: xs)

/-- 3.8. -/
def subscribe (bs : Bytes) : Option Packet := do
  let (id, r) ← two bs
  let (props, r) ← properties r
  let fs ← many filter r.length r
  some (.subscribe id props fs)

/-- 3.10. -/
def unsubscribe (bs : Bytes) : Option Packet := do
  let (id, r) ← two bs
  let (props, r) ← properties r
  let fs ← many text r.length r
  some (.unsubscribe id props fs)

/-- 3.14: reason code (0 if left out), properties (empty if left out). -/
def disconnect (bs : Bytes) : Option Packet :=
  if bs = [] then some (.disconnect 0 [])
  else do
    let (reason, r) ← byte bs
    if r = [] then some (.disconnect reason [])
    else
      let (props, r) ← properties r
      if r = [] then some (.disconnect reason props) else none

/-- The fixed header (2.1): type and flag nibbles, Remaining Length, and exactly that many bytes. -/
def frame (bs : Bytes) : Option (Nat × Nat × Bytes) := do
  let (b, r) ← byte bs
  let (n, body) ← vbi r
  if n = body.length then some (b / 16, b % 16, body) else none

/-- The packet types a client sends, with the fixed header flags table 2-2 prescribes. -/
def dispatch (type flags : Nat) (body : Bytes) : Option Packet :=
  match type, flags with
  | 1, 0 => connect body
  | 3, flags => publish flags body
  | 4, 0 => puback body
  | 8, 2 => subscribe body
  | 10, 2 => unsubscribe body
  | 12, 0 => if body = [] then some .pingreq else none
  | 14, 0 => disconnect body
  | _, _ => none

/-- One packet from a client. -/
def packet (bs : Bytes) : Option Packet := do
  let (type, flags, body) ← frame bs
  dispatch type flags body

end Mqtt.Spec5
