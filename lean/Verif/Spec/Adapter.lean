import Verif.Adapter

/-!
What can be seen of the adapter: which calls of the user have been answered.
-/
namespace Mqtt.Adapter

/-- The user's call number `i`, whatever it was. -/
def Note.calls (i : Nat) : Note → Bool
  | .connectCalled j => j == i
  | .disconnectCalled j => j == i
  | .accepted j .. => j == i
  | _ => false

/-- `connect()` was called, as call number `i`. -/
def Note.asksConnect (i : Nat) : Note → Bool
  | .connectCalled j => j == i
  | _ => false

/-- `disconnect()` was called, as call number `i`. -/
def Note.asksDisconnect (i : Nat) : Note → Bool
  | .disconnectCalled j => j == i
  | _ => false

/-- An operation was accepted, as call number `i`. -/
def Note.asksOperation (i : Nat) : Note → Bool
  | .accepted j .. => j == i
  | _ => false

/-- `on_connection_complete` of call `i`. -/
def Note.answersConnect (i : Nat) : Note → Bool
  | .connectDone j _ => j == i
  | _ => false

/-- `on_disconnect` of call `i`. -/
def Note.answersDisconnect (i : Nat) : Note → Bool
  | .disconnectDone j => j == i
  | _ => false

/-- The callback of the operation of call `i`. -/
def Note.answersOperation (i : Nat) : Note → Bool
  | .finished j _ _ => j == i
  | _ => false

/-- The client is started and stopped by the adapter only, until the adapter has terminated. -/
def Exclusive (s : Sys) : Event → Prop
  | .client (.setDesired ..) => s.ad.gone = true
  | _ => True

/-- One note, for `attempted`. -/
def Note.attempts (b : Bool) : Note → Bool
  | .connecting _ => false
  | .attempting => true
  | _ => b

/-- The MQTT 5 client has begun to connect since `connect()` was last acted upon. -/
def attempted (l : List Note) : Bool := l.foldl Note.attempts false

/-- Neither does the user call `connect()`, nor is the client started or stopped other than by the adapter. -/
def NoStart (_ : Sys) : Event → Prop
  | .connect _ => False
  | .client (.setDesired ..) => False
  | _ => True

/-- The user does not call `connect()`. -/
def NoConnect (_ : Sys) : Event → Prop
  | .connect _ => False
  | _ => True

/-- What the user hears of attempts to connect and of connections. -/
def Note.ofConnection : Note → Bool
  | .connecting _ => true
  | .connectDone .. => true
  | .connectionSuccess => true
  | .connectionFailure _ => true
  | .interrupted _ => true
  | .resumed => true
  | _ => false

/-- The MQTT 5 packet that carries an operation. -/
def Kind.packet : Kind → Option V5.Outgoing
  | .publish v => some (.publish v)
  | .subscribe _ v _ => some (.subscribe v)
  | .resubscribe => none
  | .unsubscribe _ v => some (.unsubscribe v)

/-- The operation that a call asks for, and what its packet contains. -/
def Event.asks : Event → Kind → Prop
  | .publish topic payload qos retain, k =>
    k = .publish { topic := topic, payload := payload, qos := qos, retain := retain }
  | .subscribe rs multi, k =>
    k = .subscribe rs { subscriptions := rs.map fun r => { topicFilter := r.filter, qos := r.qos } } multi
  | .resubscribe, k => k = .resubscribe
  | .unsubscribe f, k => k = .unsubscribe f { topicFilters := [f] }
  | _, _ => False

/-- What was asked, and what it is when it is submitted: a resubscribe becomes a subscribe to what is then in the
set of subscriptions. -/
def Becomes (k k' : Kind) : Prop :=
  k' = k ∨ k = .resubscribe ∧ ∃ rs, k' = .subscribe rs { subscriptions := rs.map fun r => { topicFilter := r.filter, qos := r.qos } } true

/-- MQTT 5 operation `u` was submitted for an operation. The client numbers packets later. -/
def Sent (k : Kind) (u : Nat) (l : List Client5.Effect) : Prop :=
  ∃ p q, k.packet = some p ∧ .submitted u q ∈ l ∧ Client5.withPacketId q 0 = Client5.withPacketId p 0

/-- Where the result of an operation comes from: from the completion of the MQTT 5 operation made for it; or
there was nothing to subscribe to; or the connection is terminated. -/
def Told (k : Kind) (r : Result) (l : List Client5.Effect) (log : List Note) : Prop :=
  (∃ u p e ack, Sent k u l ∧ .completed u p e ack ∈ l ∧ r = result k e ack) ∨
    k = .resubscribe ∧ (r = { code := .noTopics } ∨ r = { code := .invalidOptions }) ∨
    r = failResult k ∧ .terminated ∈ log

/-- Histories that continue from a state. -/
inductive Follows (allow : Sys → Event → Prop) (s : Sys) : Sys → Prop where
  | refl : Follows allow s s
  | step {s1 s2 : Sys} {e : Event} : Follows allow s s1 → Enabled s1 e → allow s1 e → step s1 e = .ok s2 → Follows allow s s2

theorem ReachableIf.weaken {P Q : Sys → Event → Prop} (h : ∀ s e, P s e → Q s e) {s : Sys} (hr : ReachableIf P s) :
    ReachableIf Q s := by
  induction hr with
  | new h1 h2 => exact .new h1 h2
  | step _ he ha hs ih => exact .step ih he (h _ _ ha) hs

theorem ReachableIf.reachable {P : Sys → Event → Prop} {s : Sys} (hr : ReachableIf P s) : Reachable s :=
  hr.weaken fun _ _ _ => trivial

end Mqtt.Adapter
