import Verif.Client311

/-! What the log of a 3.1.1 connection says. -/
namespace Mqtt.Client311

/-- An invocation of the completion callback of a request. -/
def isCompletion (uid : Nat) : Trace → Bool
  | .completed u _ => u == uid
  | _ => false

/-- How often the completion callback of a request has been invoked. -/
def completions (log : List Trace) (uid : Nat) : Nat := log.countP (isCompletion uid)

/-- `mqtt_create_request` has returned a packet id for the request. -/
def wasAccepted (log : List Trace) (uid : Nat) : Prop := ∃ id kind size, Trace.accepted uid id kind size ∈ log

/-- A request that has been accepted and not completed. -/
def Outstanding (log : List Trace) (uid id : Nat) (kind : Kind) (size : Nat) : Prop :=
  Trace.accepted uid id kind size ∈ log ∧ completions log uid = 0

/-- A request has been sent on a channel. -/
def SentOn (log : List Trace) (uid chan : Nat) : Prop := ∃ dup, Trace.sent uid chan dup ∈ log

/-- The packet id of an acknowledgement. -/
def Packet.ack : Packet → Option Nat
  | .puback id => some id
  | .pubcomp id => some id
  | .suback id _ => some id
  | .unsuback id => some id
  | _ => none

/-- The kind of packet that acknowledges a request. -/
def Packet.acknowledges : Packet → Kind → Bool
  | .puback _, .publish qos => qos = 1
  | .pubcomp _, .publish qos => qos = 2
  | .suback _ _, .subscribe _ => true
  | .suback _ _, .resubscribe => true
  | .unsuback _, .unsubscribe => true
  | _, _ => false

/-- Packets that are SUBACKs. -/
def Packet.isSuback : Packet → Bool
  | .suback _ _ => true
  | _ => false

/-- Calls of `connect` that have been accepted. -/
def connects (log : List Trace) : Nat := log.countP fun t => t = .connecting

/-- Invocations of `on_connection_complete`. -/
def answers (log : List Trace) : Nat := log.countP fun t => t = .connectionComplete true ∨ t = .connectionComplete false

/-- A CONNACK that accepts has been processed since the last connect. -/
def Acked (log : List Trace) : Prop := ∃ pre m post, log = pre ++ .processed m (.connack true) :: post ∧ .connecting ∉ post

/-- The operations (requests that are not pings) that have been accepted and satisfy `p` are `count` in number, and
their packets have `size` bytes together. -/
def Amount (log : List Trace) (p : Nat → Prop) (count size : Int) : Prop :=
  ∃ l : List (Nat × Nat), (l.map (·.1)).Nodup ∧
    (∀ uid n, (uid, n) ∈ l ↔ (∃ id kind, kind ≠ .ping ∧ Trace.accepted uid id kind n ∈ log) ∧ p uid) ∧
    count = l.length ∧ size = (l.map (·.2)).sum

end Mqtt.Client311
