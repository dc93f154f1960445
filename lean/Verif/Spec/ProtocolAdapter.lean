import Verif.ProtocolAdapter

/-! What the user of the protocol adapter sees. -/
namespace Mqtt.Rrpa

/-- A callback for an operation. -/
def isReport (uid : Nat) : Trace → Bool
  | .subscription u .. => u == uid
  | .published u _ => u == uid
  | _ => false

/-- The client completes an operation. -/
def isAnswer (uid : Nat) : Trace → Bool
  | .answered u _ => u == uid
  | _ => false

def reports (log : List Trace) (uid : Nat) : Nat := log.countP (isReport uid)

def answers (log : List Trace) (uid : Nat) : Nat := log.countP (isAnswer uid)

/-- What happened before `terminate_callback`. -/
def early (log : List Trace) : List Trace := log.takeWhile (· ≠ .terminated)

/-- A callback of the user of the adapter. -/
def isCallback : Trace → Bool
  | .subscription .. => true
  | .published .. => true
  | .incoming .. => true
  | .connection .. => true
  | .terminated => true
  | _ => false

/-- The server has done what the operation asked for, and the client says so: a SUBACK or UNSUBACK with exactly one
reason code, which is no error; a PUBACK whose reason code is no error. (The 3.1.1 client passes the one return code of
a SUBACK as QoS; its UNSUBACK and PUBACK have none.) -/
def Answer.granted : Answer → Prop
  | .subscribe311 qos error => error = .success ∧ qos < 128
  | .unsubscribe311 error => error = .success
  | .publish311 error => error = .success
  | .subscribe5 suback error => error = .success ∧ ∃ reason, suback = some [reason] ∧ reason < 128
  | .unsubscribe5 unsuback error => error = .success ∧ ∃ reason, unsuback = some [reason] ∧ reason < 128
  | .publish5 puback error => error = .success ∧ ∀ reason, puback = some reason → reason < 128

/-- The client's own error code. -/
def Answer.error : Answer → Error
  | .subscribe311 _ error => error
  | .unsubscribe311 error => error
  | .publish311 error => error
  | .subscribe5 _ error => error
  | .unsubscribe5 _ error => error
  | .publish5 _ error => error

/-- The first reason code of the acknowledgement is one of these. -/
def reasonIn (ack : Option (List Nat)) (codes : List Nat) : Prop := ∃ reason rest, ack = some (reason :: rest) ∧ reason ∈ codes

/-- A failure that may go away: a subscribe that was not invalid and that the server did not refuse for good
(unspecified 128, implementation specific 131, packet id in use 145, quota exceeded 151); an unsubscribe that timed out
or was refused as unspecified or implementation specific. -/
def Answer.transient : Answer → Prop
  | .subscribe311 .. => True
  | .unsubscribe311 error => error = .timeout
  | .publish311 _ => False
  | .subscribe5 suback error =>
    (error ≠ .success ∧ error ≠ .packetValidation ∧ error ≠ .subscribeOptions) ∨
    (error = .success ∧ (suback = none ∨ suback = some [] ∨ reasonIn suback [0, 1, 2, 128, 131, 145, 151]))
  | .unsubscribe5 unsuback error =>
    error = .timeout ∨ (error ≠ .packetValidation ∧ error ≠ .unsubscribeOptions ∧ reasonIn unsuback [128, 131])
  | .publish5 .. => False

/-- The callback that belongs to an operation of a kind. -/
def Reports (kind : Kind) (uid : Nat) (error : Error) (retryable : Bool) : Trace → Prop
  | .subscription u sub filter e r => u = uid ∧ e = error ∧ r = retryable ∧
      kind = (if sub then .subscribe filter else .unsubscribe filter)
  | .published u e => u = uid ∧ e = error ∧ kind = .publish
  | _ => False

end Mqtt.Rrpa
