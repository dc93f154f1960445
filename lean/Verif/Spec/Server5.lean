import Verif.Spec.Wire5
import Verif.Decoder5

/-!
The packets an MQTT 5 server sends (OASIS standard, chapter 3), written independently of the code, and
what a client ought to be told about each of them.
-/
namespace Mqtt.Spec5

inductive ServerPacket where
  | connack (sessionPresent : Bool) (reason : Nat) (props : List Property)
  | publish (p : Publish)
  | puback (id reason : Nat) (props : List Property)
  | suback (id : Nat) (props : List Property) (codes : List Nat)
  | unsuback (id : Nat) (props : List Property) (codes : List Nat)
  | pingresp
  | disconnect (reason : Nat) (props : List Property)
deriving DecidableEq, Repr

/-- 3.2: acknowledge flags (only bit 0 may be set), reason code, properties. -/
def connack (bs : Bytes) : Option ServerPacket := do
  let (flags, r) ← byte bs
  let (reason, r) ← byte r
  let (props, r) ← properties r
  if flags ≤ 1 ∧ r = [] then some (.connack (flags == 1) reason props) else none

/-- 3.9 and 3.11: packet identifier, properties, one reason code per byte. -/
def ackList (make : Nat → List Property → List Nat → ServerPacket) (bs : Bytes) : Option ServerPacket := do
  let (id, r) ← two bs
  let (props, r) ← properties r
  some (make id props (r.map UInt8.toNat))

/-- The packets both sides may send. -/
def shared : Packet → Option ServerPacket
  | .publish p => some (.publish p)
  | .puback id reason props => some (.puback id reason props)
  | .disconnect reason props => some (.disconnect reason props)
  | _ => none

/-- The packet types a server sends, with the fixed header flags table 2-2 prescribes. -/
def serverDispatch (type flags : Nat) (body : Bytes) : Option ServerPacket :=
  if type = 3 then (publish flags body).bind shared
  else if flags ≠ 0 then none
  else match type with
    | 2 => connack body
    | 4 => (puback body).bind shared
    | 9 => ackList .suback body
    | 11 => ackList .unsuback body
    | 13 => if body = [] then some .pingresp else none
    | 14 => (disconnect body).bind shared
    | _ => none

/-- One packet from a server. -/
def serverPacket (bs : Bytes) : Option ServerPacket := do
  let (type, flags, body) ← frame bs
  serverDispatch type flags body

/-! ### Which properties a packet may have (table 2-4 and chapter 3) -/

def connackIds : List Nat := [17, 18, 19, 21, 22, 26, 28, 31, 33, 34, 36, 37, 38, 39, 40, 41, 42]
def publishIds : List Nat := [1, 2, 3, 8, 9, 11, 35, 38]
def ackIds : List Nat := [31, 38]
def disconnectIds : List Nat := [17, 28, 31, 38]

/-- Only allowed properties; all but the user property, and the subscription identifiers of a PUBLISH,
at most once; the values of "available" properties are 0 or 1. -/
structure PropsOk (allowed : List Nat) (ps : List Property) : Prop where
  allowed : ∀ p ∈ ps, p.id ∈ allowed
  once : ∀ id, id ≠ 38 → id ≠ 11 → (ps.filter fun p => p.id == id).length ≤ 1
  flags : ∀ p ∈ ps, p.id ∈ [37, 40, 41, 42] → p.value = .num 0 ∨ p.value = .num 1

def PacketOk : ServerPacket → Prop
  | .connack _ _ ps => PropsOk connackIds ps
  | .publish p => PropsOk publishIds p.props
  | .puback _ _ ps => PropsOk ackIds ps
  | .suback _ ps _ => PropsOk ackIds ps
  | .unsuback _ ps _ => PropsOk ackIds ps
  | .pingresp => True
  | .disconnect _ ps => PropsOk disconnectIds ps

/-! ### What the client is told -/

def numOf : Value → Nat
  | .num n => n
  | _ => 0

def textOf : Value → Bytes
  | .text s => s
  | _ => []

def pairOf : Value → V5.UserProperty
  | .pair k v => ⟨k, v⟩
  | _ => ⟨[], []⟩

/-- The value of a property that occurs at most once. -/
def the (id : Nat) (ps : List Property) : Option Value := (ps.find? fun p => p.id == id).map Property.value

def num (id : Nat) (ps : List Property) : Option Nat := (the id ps).map numOf
def flag (id : Nat) (ps : List Property) : Option Bool := (the id ps).map fun v => numOf v == 1
def str (id : Nat) (ps : List Property) : Option Bytes := (the id ps).map textOf

/-- The user properties, in order. -/
def users (ps : List Property) : List V5.UserProperty := (ps.filter fun p => p.id == 38).map fun p => pairOf p.value

/-- The subscription identifiers, in order. -/
def subIds (ps : List Property) : List Nat := (ps.filter fun p => p.id == 11).map fun p => numOf p.value

def expected : ServerPacket → V5.Received
  | .connack present reason ps => .connack
    { sessionPresent := present, reasonCode := reason, sessionExpiry := num 17 ps, receiveMaximum := num 33 ps,
      maximumQos := num 36 ps, retainAvailable := flag 37 ps, maximumPacketSize := num 39 ps,
      assignedClientId := str 18 ps, topicAliasMaximum := num 34 ps, reasonString := str 31 ps,
      userProperties := users ps, wildcardSubscriptions := flag 40 ps, subscriptionIdentifiers := flag 41 ps,
      sharedSubscriptions := flag 42 ps, serverKeepAlive := num 19 ps, responseInformation := str 26 ps,
      serverReference := str 28 ps, authMethod := str 21 ps, authData := str 22 ps }
  | .publish p => .publish
    { payload := p.payload, packetId := p.packetId.getD 0, qos := p.qos, duplicate := p.dup, retain := p.retain,
      topic := p.topic, payloadFormat := num 1 p.props, messageExpiry := num 2 p.props,
      topicAlias := num 35 p.props, responseTopic := str 8 p.props, correlationData := str 9 p.props,
      subscriptionIdentifiers := subIds p.props, contentType := str 3 p.props, userProperties := users p.props }
  | .puback id reason ps => .puback
    { packetId := id, reasonCode := reason, reasonString := str 31 ps, userProperties := users ps }
  | .suback id ps codes => .suback
    { packetId := id, reasonString := str 31 ps, userProperties := users ps, reasonCodes := codes }
  | .unsuback id ps codes => .unsuback
    { packetId := id, reasonString := str 31 ps, userProperties := users ps, reasonCodes := codes }
  | .pingresp => .pingresp
  | .disconnect reason ps => .disconnect
    { reasonCode := reason, sessionExpiry := num 17 ps, reasonString := str 31 ps, serverReference := str 28 ps,
      userProperties := users ps }

/-! ### Topic aliases of incoming PUBLISH packets (3.3.2.3.4) -/

/-- What each alias stands for; `none` if the client allowed no aliases. Aliases run from 1 to the length. -/
abbrev Aliases := Option (List (Option Bytes))

/-- The topic a PUBLISH is about and the aliases after it; `none` if the packet is in error. -/
def topicOf (aliases : Aliases) (p : Publish) : Option (Bytes × Aliases) :=
  match num 35 p.props with
  | none => some (p.topic, aliases)
  | some a =>
    match aliases with
    | none => none
    | some table =>
      if a = 0 ∨ table.length < a then none
      else if p.topic ≠ [] then some (p.topic, some (table.set (a - 1) (some p.topic)))
      else match table[a - 1]? with
        | some (some topic) => some (topic, aliases)
        | _ => none

/-- A packet with the topic its alias stands for filled in. -/
def resolved (aliases : Aliases) : ServerPacket → Option (ServerPacket × Aliases)
  | .publish p => (topicOf aliases p).map fun x => (.publish { p with topic := x.1 }, x.2)
  | p => some (p, aliases)

end Mqtt.Spec5
