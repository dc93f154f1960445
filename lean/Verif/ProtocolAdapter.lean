import Verif.Basic
import Verif.Map

/-!
The adapter between the request-response client and its MQTT client, 3.1.1 or 5
(source/request-response/protocol_adapter.c; line numbers refer to it), with the listener it attaches to the client
(source/mqtt311_listener.c, source/v5/mqtt5_listener.c).

An operation is named by its place in the order of submission (its uid). Its user data, allocated in `ops` until it is
freed, is what the client's completion callback gets; `incomplete` is the list `incomplete_operations`. The MQTT client
is abstract: it accepts or refuses an operation and completes each one it has accepted at most once, whenever it likes,
also after the adapter is gone (`given` are those it has still to complete). A call made from a callback is a call made
after the event: the callbacks are followed only by the release of the user data of the same operation. The event loop
runs the tasks of the listener in the order in which they are scheduled.

A use of freed user data or of the freed adapter is the fault `memory`. Left out: ack timeouts, payloads, allocation
failures, logging.
-/
namespace Mqtt.Rrpa

/-- The MQTT client. -/
inductive Version where
  | v311
  | v5
deriving DecidableEq, Repr

/-- Error codes. -/
inductive Error where
  | success
  /-- AWS_ERROR_MQTT_TIMEOUT -/
  | timeout
  /-- AWS_ERROR_MQTT5_PACKET_VALIDATION -/
  | packetValidation
  /-- AWS_ERROR_MQTT5_SUBSCRIBE_OPTIONS_VALIDATION -/
  | subscribeOptions
  /-- AWS_ERROR_MQTT5_UNSUBSCRIBE_OPTIONS_VALIDATION -/
  | unsubscribeOptions
  /-- AWS_ERROR_MQTT_PROTOCOL_ADAPTER_FAILING_REASON_CODE -/
  | failingReason
  /-- AWS_ERROR_MQTT_REQUEST_RESPONSE_CLIENT_SHUT_DOWN -/
  | shutDown
  | other (code : Nat)
deriving DecidableEq, Repr

/-- Which completion callback belongs to an operation. -/
inductive Kind where
  | subscribe (filter : Bytes)
  | unsubscribe (filter : Bytes)
  | publish
deriving DecidableEq, Repr

/-- What the client passes to a completion callback. `none` is a NULL packet or, for a publish, one that is no PUBACK.
The 3.1.1 client passes the return code of the SUBACK as the granted QoS. -/
inductive Answer where
  | subscribe311 (qos : Nat) (error : Error)
  | unsubscribe311 (error : Error)
  | publish311 (error : Error)
  | subscribe5 (suback : Option (List Nat)) (error : Error)
  | unsubscribe5 (unsuback : Option (List Nat)) (error : Error)
  | publish5 (puback : Option Nat) (error : Error)
deriving DecidableEq, Repr

/-- Which answers a client gives to which operations. -/
def Answer.answers : Answer → Version → Kind → Bool
  | .subscribe311 .., .v311, .subscribe _ => true
  | .unsubscribe311 _, .v311, .unsubscribe _ => true
  | .publish311 _, .v311, .publish => true
  | .subscribe5 .., .v5, .subscribe _ => true
  | .unsubscribe5 .., .v5, .unsubscribe _ => true
  | .publish5 .., .v5, .publish => true
  | _, _, _ => false

/-- `s_is_retryable_subscribe` (547-567). -/
def retryableSubscribe (reason : Nat) (error : Error) : Bool :=
  if error = .packetValidation ∨ error = .subscribeOptions then false
  else if error ≠ .success then true
  else
    match reason with
    | 0 => true
    | 1 => true
    | 2 => true
    | 128 => true
    | 145 => true
    | 131 => true
    | 151 => true
    | _ => false

/-- `s_is_retryable_unsubscribe5` (645-661). -/
def retryableUnsubscribe5 (reason : Nat) (error : Error) : Bool :=
  if error = .packetValidation ∨ error = .unsubscribeOptions then false
  else if error = .timeout then true
  else
    match reason with
    | 128 => true
    | 131 => true
    | _ => false

/-- `s_is_retryable_unsubscribe311` (214-216). -/
def retryableUnsubscribe311 (error : Error) : Bool := error = .timeout

/-- The reason code that decides whether to retry (580-583, 674-677). -/
def firstReason : Option (List Nat) → Nat
  | some (reason :: _) => reason
  | _ => 0

/-- The error code after the acknowledgement has been looked at (586-590, 681-685). -/
def judge (ack : Option (List Nat)) (error : Error) : Error :=
  if error = .success then
    match ack with
    | some [reason] => if reason ≥ 128 then .failingReason else .success
    | _ => .failingReason
  else error

/-- Error code and retryability of what is reported: `s_protocol_adapter_311_subscribe_completion` (141-177),
`s_protocol_adapter_311_unsubscribe_completion` (218-245), `s_protocol_adapter_311_publish_completion` (278-300),
`s_protocol_adapter_5_subscribe_completion` (569-604), `s_protocol_adapter_5_unsubscribe_completion` (663-699),
`s_protocol_adapter_5_publish_completion` (735-760). Publishes have no retryability. -/
def Answer.report : Answer → Error × Bool
  | .subscribe311 qos error => (if error = .success ∧ qos ≥ 128 then .failingReason else error, true)
  | .unsubscribe311 error => (error, retryableUnsubscribe311 error)
  | .publish311 error => (error, false)
  | .subscribe5 suback error => (judge suback error, retryableSubscribe (firstReason suback) error)
  | .unsubscribe5 unsuback error => (judge unsuback error, retryableUnsubscribe5 (firstReason unsuback) error)
  | .publish5 puback error =>
    (match puback with
      | some reason => if error = .success ∧ reason ≥ 128 then .failingReason else error
      | none => error, false)

/-- `struct aws_mqtt_protocol_adapter_operation_userdata` (52-64); `adapter` says whether the pointer is not NULL. -/
structure Op where
  kind : Kind
  adapter : Bool := true
deriving DecidableEq, Repr

inductive Trace where
  /-- The client has accepted or refused an operation. -/
  | submitted (uid : Nat) (kind : Kind)
  | refused (kind : Kind)
  /-- The client has completed an operation. -/
  | answered (uid : Nat) (answer : Answer)
  /-- `subscription_event_callback` -/
  | subscription (uid : Nat) (subscribe : Bool) (filter : Bytes) (error : Error) (retryable : Bool)
  /-- The completion callback of a publish. -/
  | published (uid : Nat) (error : Error)
  /-- `incoming_publish_callback` -/
  | incoming (topic payload : Bytes)
  /-- `connection_event_callback` -/
  | connection (up joined : Bool)
  /-- `aws_mqtt_protocol_adapter_destroy` -/
  | destroying
  /-- `terminate_callback` -/
  | terminated
deriving DecidableEq, Repr

/-- The tasks of the listener. -/
inductive Task where
  | begin
  | finish
deriving DecidableEq, Repr

structure Adapter where
  ops : AMap Nat Op := []
  nextUid : Nat := 0
  incomplete : List Nat := []
  /-- Operations the client has accepted and not completed. -/
  given : List Nat := []
  /-- References to the listener: one of the adapter, one of the first task. -/
  refs : Nat := 2
  tasks : List Task := [.begin]
  attached : Bool := false
  /-- `aws_mqtt_protocol_adapter_destroy` has been called. -/
  dying : Bool := false
  /-- The adapter has not been freed. -/
  alive : Bool := true
  log : List Trace := []
deriving DecidableEq, Repr

inductive Fault where
  | memory
deriving DecidableEq, Repr

/-- `s_aws_mqtt_protocol_adapter_operation_user_data_destroy` (101-116). -/
def Adapter.free (a : Adapter) (uid : Nat) : Adapter :=
  { a with ops := a.ops.del uid, incomplete := a.incomplete.filter (· ≠ uid) }

/-- The functions that submit an operation (179-210, 247-274, 302-332, 606-641, 701-731, 762-789). -/
def Adapter.submit (a : Adapter) (kind : Kind) (accepted : Bool) : Except Fault Adapter :=
  if !a.alive then .error .memory
  else
    let uid := a.nextUid
    let a : Adapter := { a with
      nextUid := uid + 1
      ops := a.ops.set uid { kind := kind }
      incomplete := a.incomplete ++ [uid] }
    if accepted then .ok { a with given := a.given ++ [uid], log := a.log ++ [.submitted uid kind] }
    else .ok { a.free uid with log := a.log ++ [.refused kind] }

/-- The callback for an operation that is complete. -/
def Op.callback (op : Op) (uid : Nat) (answer : Answer) : Trace :=
  match op.kind with
  | .subscribe filter => .subscription uid true filter answer.report.1 answer.report.2
  | .unsubscribe filter => .subscription uid false filter answer.report.1 answer.report.2
  | .publish => .published uid answer.report.1

/-- The client's completion callbacks. -/
def Adapter.complete (a : Adapter) (uid : Nat) (answer : Answer) : Except Fault Adapter :=
  match a.ops.get uid with
  | none => .error .memory
  | some op =>
    let a : Adapter := { a with given := a.given.filter (· ≠ uid), log := a.log ++ [.answered uid answer] }
    if !op.adapter then .ok (a.free uid)
    else if !a.alive then .error .memory
    else .ok ({ a with log := a.log ++ [op.callback uid answer] }.free uid)

/-- `s_release_incomplete_operations` (421-441): the loop. -/
def Adapter.orphan (a : Adapter) : List Nat → Adapter
  | [] => a
  | uid :: rest =>
    match a.ops.get uid with
    | none => a.orphan rest
    | some op =>
      ({ a with
        ops := a.ops.set uid { op with adapter := false }
        log := a.log ++ (if op.kind = .publish then [.published uid .shutDown] else []) } : Adapter).orphan rest

/-- `aws_mqtt311_listener_release`, `aws_mqtt5_listener_release`. -/
def Adapter.releaseListener (a : Adapter) : Adapter :=
  { a with refs := a.refs - 1, tasks := if a.refs = 1 then a.tasks ++ [.finish] else a.tasks }

/-- `s_aws_mqtt_protocol_adapter_311_destroy` (132-137), `s_aws_mqtt_protocol_adapter_5_destroy` (538-543). -/
def Adapter.destroy (a : Adapter) : Except Fault Adapter :=
  if !a.alive then .error .memory
  else .ok ({ a with dying := true, log := a.log ++ [.destroying] } : Adapter).releaseListener

/-- The termination callbacks (443-461, 848-865). They use each user data in the list. -/
def Adapter.terminate (a : Adapter) : Except Fault Adapter :=
  if !a.alive || a.incomplete.any (fun uid => (a.ops.get uid).isNone) then .error .memory
  else
    let a : Adapter := { a with incomplete := [] }.orphan a.incomplete
    .ok { a with alive := false, log := a.log ++ [.terminated] }

/-- The event loop runs the next task of the listener (mqtt311_listener.c:52-89, mqtt5_listener.c:40-75). -/
def Adapter.run (a : Adapter) : Except Fault Adapter :=
  match a.tasks with
  | [] => .ok a
  | .begin :: rest => .ok ({ a with tasks := rest, attached := true } : Adapter).releaseListener
  | .finish :: rest => ({ a with tasks := rest, attached := false } : Adapter).terminate

/-- What the client tells its listeners: 3.1.1 `connection_success_handler`, `connection_interrupted_handler` and
`disconnect_handler`, 5 lifecycle events. -/
inductive News where
  | success (joined : Bool)
  /-- 3.1.1 only. -/
  | interrupted
  /-- `disconnect_handler` or AWS_MQTT5_CLET_DISCONNECTION. -/
  | disconnected
  /-- Attempting to connect, connection failure, stopped (5 only). -/
  | none
deriving DecidableEq, Repr

/-- `s_protocol_adapter_mqtt311_listener_connection_success` to `s_aws_mqtt_protocol_adapter_311_disconnect_fn`
(360-406), `s_protocol_adapter_mqtt5_lifecycle_event_callback` (822-846). -/
def News.tell : News → List Trace
  | .success joined => [.connection true joined]
  | .interrupted => [.connection false false]
  | .disconnected => [.connection false false]
  | .none => []

inductive Event where
  | submit (kind : Kind) (accepted : Bool)
  | complete (uid : Nat) (answer : Answer)
  | destroy
  | run
  | news (n : News)
  /-- The client has received a publish. -/
  | publish (topic payload : Bytes)
deriving DecidableEq, Repr

/-- The adapter is not used after it has been destroyed; the client completes what it was given, with the callback that
was given. -/
def Enabled (v : Version) (a : Adapter) : Event → Prop
  | .submit .. => a.dying = false
  | .complete uid answer => uid ∈ a.given ∧ ∀ kind, Trace.submitted uid kind ∈ a.log → answer.answers v kind = true
  | .destroy => a.dying = false
  | .run => a.tasks ≠ []
  | .news _ => True
  | .publish .. => True

/-- Callbacks of the listener are invoked while it is attached. -/
def step (a : Adapter) : Event → Except Fault Adapter
  | .submit kind accepted => a.submit kind accepted
  | .complete uid answer => a.complete uid answer
  | .destroy => a.destroy
  | .run => a.run
  | .news n =>
    if !a.attached then .ok a
    else if !a.alive then .error .memory
    else .ok { a with log := a.log ++ n.tell }
  | .publish topic payload =>
    if !a.attached then .ok a
    else if !a.alive then .error .memory
    else .ok { a with log := a.log ++ [.incoming topic payload] }

/-- Histories without a fault. -/
inductive Reachable (v : Version) : Adapter → Prop where
  | new : Reachable v {}
  | step {a a' : Adapter} {e : Event} : Reachable v a → Enabled v a e → step a e = .ok a' → Reachable v a'

end Mqtt.Rrpa
