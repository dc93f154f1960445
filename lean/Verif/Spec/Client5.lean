import Verif.Client5

/-!
What an observer of the MQTT 5 client can work out from its log of effects: callbacks invoked, packets
sent and received, connections begun and ended.
-/
namespace Mqtt.Client5

open Mqtt.V5

/-- Is there an MQTT connection? -/
def live (log : List Effect) : Bool :=
  log.foldl (fun b e => match e with
    | .connected _ => true
    | .disconnected => false
    | _ => b) false

/-- A list of operations sent and not yet completed, kept up to date over one effect. -/
def trackOne (perConnection : Bool) (l : List (Nat × Outgoing)) : Effect → List (Nat × Outgoing)
  | .encoded u p => if requiresAck p then l ++ [(u, p)] else l
  | .completed u _ _ _ => l.filter fun x => x.1 != u
  | .connected _ => []
  | .disconnected => if perConnection then [] else l
  | _ => l

def track (perConnection : Bool) (log : List Effect) : List (Nat × Outgoing) :=
  log.foldl (trackOne perConnection) []

/-- The operations sent on the present connection that wait for an acknowledgement, in the order sent. -/
def inFlight (log : List Effect) : List (Nat × Outgoing) := track true log

/-- The operations sent since the beginning of the last connection that wait for an acknowledgement. -/
def awaiting (log : List Effect) : List Nat := (track false log).map (·.1)

/-- The operations submitted and not completed, kept up to date over one effect. -/
def pendingOne (l : List (Nat × Outgoing)) : Effect → List (Nat × Outgoing)
  | .submitted u p => l ++ [(u, p)]
  | .completed u _ _ _ => l.filter fun x => x.1 != u
  | _ => l

/-- The operations submitted by the user that have not been completed. -/
def pending (log : List Effect) : List (Nat × Outgoing) := log.foldl pendingOne []

/-- The size by which an operation counts: the size of its packet as submitted, without packet id in the
case of a PUBLISH; none if the packet is too large to be encoded at all. -/
def weight (p : Outgoing) : Option Nat := encodedSize (withPacketId p 0)

/-- Those of them that have been sent and wait for an acknowledgement. -/
def unacknowledged (log : List Effect) : List (Nat × Outgoing) :=
  (pending log).filter fun x => (awaiting log).contains x.1

/-- Number of operations that count, and their total size. -/
def countOf (l : List (Nat × Outgoing)) : Int := (l.filter fun x => (weight x.2).isSome).length
def bytesOf (l : List (Nat × Outgoing)) : Int := ((l.map fun x => ((weight x.2).getD 0 : Int))).sum

/-- The log before and after the beginning of the last connection, kept up to date over one effect. -/
def divideOne (r : List Effect × List Effect) (e : Effect) : List Effect × List Effect :=
  match e with
  | .connected _ => (r.1 ++ r.2 ++ [e], [])
  | _ => (r.1, r.2 ++ [e])

def divide (log : List Effect) : List Effect × List Effect := log.foldl divideOne ([], [])

/-- Up to the beginning of the last connection. -/
def past (log : List Effect) : List Effect := (divide log).1

/-- Since the beginning of the last connection. -/
def present (log : List Effect) : List Effect := (divide log).2

/-- Some operation is sent on the last connection with a packet id it got on an earlier one. -/
def Resends (log : List Effect) : Prop :=
  ∃ u p w p' w', .started u p w ∈ present log ∧ .started u p' w' ∈ past log ∧ requiresAck p = true ∧
    packetId p' = packetId p

/-- The publish window of a connection: the server's receive maximum, the packet ids of QoS 1 publishes sent
and not acknowledged by a PUBACK, the number of QoS 1 publishes sent and of PUBACKs received, and whether
every PUBACK was for one of those packet ids. -/
structure Window where
  maximum : Nat := 0
  open_ : List Nat := []
  sent : Nat := 0
  acks : Nat := 0
  honest : Bool := true
deriving DecidableEq, Repr

def windowOne (w : Window) : Effect → Window
  | .connected s => { maximum := s.receiveMaximumFromServer }
  | .encoded _ p => if isQos1 p then { w with open_ := packetId p :: w.open_, sent := w.sent + 1 } else w
  | .pubackReceived id =>
    { w with open_ := w.open_.erase id, acks := w.acks + 1, honest := w.honest && w.open_.contains id }
  | _ => w

/-- The window of the last connection. -/
def window (log : List Effect) : Window := log.foldl windowOne {}

/-- The errors of operations that fail the check against the negotiated settings. -/
def Error.validation : Error → Bool
  | .packetValidation => true
  | .publishValidation => true
  | .disconnectValidation => true
  | _ => false

def refusedOne (r : Bool) : Effect → Bool
  | .connected _ => false
  | .completed _ _ e _ => r || e.validation
  | _ => r

/-- Has an operation failed that check on the last connection? -/
def refused (log : List Effect) : Bool := log.foldl refusedOne false

/-- The acknowledgement is one for this packet: it has the packet id, and is a SUBACK for a SUBSCRIBE or an
UNSUBACK for an UNSUBSCRIBE with a reason code for each topic filter. A PUBACK has no reason codes to count. -/
def Answers : Received → Outgoing → Prop
  | .puback a, p => packetId p = a.packetId
  | .suback a, .subscribe v => v.packetId = a.packetId ∧ v.subscriptions.length = a.reasonCodes.length
  | .unsuback a, .unsubscribe v => v.packetId = a.packetId ∧ v.topicFilters.length = a.reasonCodes.length
  | _, _ => False

/-- Where a sequence of lifecycle events leaves the user: no connection attempt is under way (`stopping` if the last one
failed because the client was stopped), one is under way, or the client is connected. -/
inductive Phase where
  | idle (stopping : Bool)
  | attempting
  | connected
deriving DecidableEq, Repr

/-- The documented order: an attempt, then failure or success; after success a disconnection; stopped only when idle.
With `restart`, success is also allowed right after an attempt that failed because the client was stopped. -/
def followOne (restart : Bool) : Option Phase → LEvent → Option Phase
  | some (.idle _), .attempting => some .attempting
  | some (.idle stopping), .success => if restart && stopping then some .connected else none
  | some (.idle _), .stopped => some (.idle false)
  | some .attempting, .success => some .connected
  | some .attempting, .failure e => some (.idle (e == .userStop))
  | some .connected, .disconnection _ => some (.idle false)
  | _, _ => none

/-- None if the events are out of order. -/
def follow (restart : Bool) (events : List LEvent) : Option Phase := events.foldl (followOne restart) (some (.idle false))

end Mqtt.Client5
