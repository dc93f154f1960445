import Verif.Lemmas.Encoder5
import Verif.Validate5
import Verif.Decoder5
import Verif.Negotiated5
import Verif.Reconnect
import Verif.Map

/-!
Model of the MQTT 5 client, /repo/source/v5/mqtt5_client.c (line numbers refer to it unless said
otherwise): operation queues, acknowledgements, flow control, statistics, manual PUBACKs, client
states and lifecycle events.

An event is one callback run by the event loop: a submitted task, the service task, a channel
callback, a decoded packet.  Everything an event does not determine itself is an oracle in the event:
clock readings, rate limiter verdicts (the limiters themselves are `Verif/RateLimiter.lean`), whether
handing a message to the channel or starting a connection fails.

`OpState.log` and `Control.events` are not in the code: they record what the client does to the outside,
so that properties can be stated without looking at its state.

An operation is in exactly one of the places the C code links it into (its list node is intrusive), so
lists hold operations by value; the table and the timeout heap refer to them by `uid`, a number standing
for the object's address.  Looking up a `uid` that is no longer linked is undefined behaviour.

Simplifications: allocation does not fail; `0` as service time ("never") is `none`, which assumes that
the monotonic clock never reads 0; timepoints are natural numbers without wrap-around; operations with
equal ack timeouts time out in the order they were sent; scheduling of the service task is not modelled,
the service task may run at any time; the reconnect delay (`Verif/Reconnect.lean`) is an oracle here.
-/
namespace Mqtt.Client5

open Mqtt.V5

/-- The error codes that matter. -/
inductive Error where
  | success | timeout | offlinePolicy | userStop | terminated
  | packetValidation | publishValidation | disconnectValidation
  | processingFailure | protocolError | connackRefused | connackTimeout | sessionMismatch
  | pingTimeout | disconnectReceived | hangup | connectionReset | connectValidation
  | other (n : Nat)
deriving DecidableEq, Repr

/-- `AWS_FATAL_ASSERT` and undefined behaviour. -/
inductive Fault where
  | abort | ub
deriving DecidableEq, Repr

/-- `struct aws_mqtt5_operation`. `incomplete` and `unacked` are `statistic_state_flags`. -/
structure Op where
  uid : Nat
  packet : Outgoing
  ackTimeoutSeconds : Nat := 0
  deadline : Nat := 0
  size : Nat := 0
  incomplete : Bool := false
  unacked : Bool := false
deriving DecidableEq, Repr

/-- PUBLISH, SUBSCRIBE or UNSUBSCRIBE: `s_aws_mqtt5_operation_is_retainable` (63-73), also the test at
3696-3700. -/
def isUser : Outgoing → Bool
  | .publish _ => true
  | .subscribe _ => true
  | .unsubscribe _ => true
  | _ => false

def isPublish : Outgoing → Bool
  | .publish _ => true
  | _ => false

/-- A PUBLISH whose QoS is not 0. -/
def isQos1 : Outgoing → Bool
  | .publish v => v.qos != 0
  | _ => false

def isDisconnect : Outgoing → Bool
  | .disconnect _ => true
  | _ => false

def isConnect : Outgoing → Bool
  | .connect _ => true
  | _ => false

/-- `s_is_ping_or_puback` (1840-1844). -/
def isPingOrPuback : Outgoing → Bool
  | .pingreq => true
  | .puback _ => true
  | _ => false

/-- `s_operation_requires_ack` (3264-3278). -/
def requiresAck : Outgoing → Bool
  | .publish v => v.qos != 0
  | .subscribe _ => true
  | .unsubscribe _ => true
  | _ => false

/-- `aws_mqtt5_operation_get_packet_id` (mqtt5_options_storage.c:245-256) with the vtables. -/
def packetId : Outgoing → Nat
  | .publish v => v.packetId
  | .subscribe v => v.packetId
  | .unsubscribe v => v.packetId
  | _ => 0

/-- `aws_mqtt5_operation_set_packet_id` (mqtt5_options_storage.c:238-243) with the vtables. -/
def withPacketId (p : Outgoing) (id : Nat) : Outgoing :=
  match p with
  | .publish v => .publish { v with packetId := id }
  | .subscribe v => .subscribe { v with packetId := id }
  | .unsubscribe v => .unsubscribe { v with packetId := id }
  | p => p

/-- `enum aws_mqtt5_client_operation_queue_behavior_type` after `to_non_default`
(mqtt5_utils.c:374-381). -/
inductive OfflineBehavior where
  | failAll | failQos0 | failNonQos1
deriving DecidableEq, Repr

/-- `s_aws_mqtt5_operation_satisfies_offline_queue_retention_policy` (82-120). -/
def retained (b : OfflineBehavior) (p : Outgoing) : Bool :=
  match b with
  | .failAll => false
  | .failQos0 => if !isUser p then false else if isPublish p then isQos1 p else true
  | .failNonQos1 => if !isUser p then false else isQos1 p

/-- Client options. `extended` is `extended_validation_and_flow_control_options != NONE`. -/
structure Config where
  offline : OfflineBehavior := .failQos0
  session : SessionBehavior := .clean
  ackTimeoutSeconds : Nat := 0
  pingTimeoutMs : Nat := 0
  connackTimeoutMs : Nat := 0
  connect : ConnectView := {}
  inboundAliases : Option Nat := none
  outboundAliases : TopicAlias.Behavior := .disabled
  extended : Bool := false
deriving DecidableEq, Repr

/-! ## Operational state -/

/-- `struct aws_mqtt5_client_operation_statistics_impl`. The atomics are `size_t`; integers show that
they never go below zero. -/
structure Stats where
  incomplete : Int := 0
  incompleteSize : Int := 0
  unacked : Int := 0
  unackedSize : Int := 0
deriving DecidableEq, Repr

/-- What the operational state does to the outside: callbacks and data sent. -/
inductive Effect where
  /-- An operation is accepted from the user. -/
  | submitted (uid : Nat) (packet : Outgoing)
  /-- The completion callback of an operation is invoked. -/
  | completed (uid : Nat) (packet : Outgoing) (error : Error) (ack : Option Received)
  /-- Encoding of an operation begins; `wire` is what the encoder has to write for it. -/
  | started (uid : Nat) (packet : Outgoing) (wire : Bytes)
  /-- The last byte of a packet has been put into the message being built. -/
  | encoded (uid : Nat) (packet : Outgoing)
  /-- A message is handed to the channel. -/
  | wrote (data : Bytes)
  /-- An operation was taken from the queue but could not be set up for encoding (3392-3395). -/
  | dropped (uid : Nat) (packet : Outgoing)
  /-- A publish was given to the user; the control id if they took over the acknowledgement. -/
  | delivered (publish : PublishView) (control : Option Nat)
  /-- The user invoked an acknowledgement: queued, cancelled or invalid. -/
  | invoked (control : Nat) (packetId : Option Nat)
  /-- A PUBACK was queued. -/
  | pubackQueued (uid : Nat) (packetId : Nat)
  /-- A PINGREQ was queued. -/
  | pingQueued (uid : Nat)
  /-- A PUBACK arrived. -/
  | pubackReceived (packetId : Nat)
  | connected (settings : Settings)
  | disconnected
deriving DecidableEq, Repr

/-- `struct aws_mqtt5_client_operational_state` with the receive maximum tokens, the encoder and the
statistics. -/
structure OpState where
  queued : List Op := []
  current : Option Op := none
  writing : List Op := []
  unacked : List Op := []
  table : AMap Nat Nat := []
  timeouts : List Nat := []
  nextId : Nat := 1
  nextUid : Nat := 0
  tokens : Nat := 0
  stats : Stats := {}
  encoder : Encoder := {}
  pendingWrite : Bool := false
  manualIds : AMap Nat Nat := []
  manualCtl : AMap Nat Nat := []
  cancelled : List Nat := []
  nextCtl : Nat := 1
  log : List Effect := []
deriving DecidableEq, Repr

/-- Count and size move in the same direction (3718-3736). -/
def bump (old new : Bool) (size : Nat) (count total : Int) : Int × Int :=
  if old = new then (count, total)
  else if new then (count + 1, total + size)
  else (count - 1, total - size)

/-- `aws_mqtt5_client_statistics_change_operation_statistic_state` (3692-3744). The fatal assert at 3708
cannot fail: `encodedSize` is at least 2 (`Client5.encodedSize_pos`). -/
def changeStats (st : Stats) (op : Op) (incomplete unacked : Bool) : Stats × Op :=
  if !isUser op.packet then (st, op)
  else
    match if op.size = 0 then encodedSize op.packet else some op.size with
    | none => (st, op)
    | some size =>
      ({ incomplete := (bump op.incomplete incomplete size st.incomplete st.incompleteSize).1
         incompleteSize := (bump op.incomplete incomplete size st.incomplete st.incompleteSize).2
         unacked := (bump op.unacked unacked size st.unacked st.unackedSize).1
         unackedSize := (bump op.unacked unacked size st.unacked st.unackedSize).2 },
       { op with size := size, incomplete := incomplete, unacked := unacked })

/-- The same for every operation of a list (`s_set_operation_list_statistic_state`, 2994-3005). -/
def changeStatsAll (st : Stats) (incomplete unacked : Bool) : List Op → Stats × List Op
  | [] => (st, [])
  | op :: ops =>
    let r := changeStats st op incomplete unacked
    let rs := changeStatsAll r.1 incomplete unacked ops
    (rs.1, r.2 :: rs.2)

/-- `s_complete_operation` (167-186), except for what the completion of a DISCONNECT does to the client. -/
def OpState.complete (s : OpState) (op : Op) (e : Error) (ack : Option Received) : OpState :=
  { s with
    stats := (changeStats s.stats op false false).1
    timeouts := s.timeouts.filter (· != op.uid)
    log := s.log ++ [.completed op.uid op.packet e ack] }

/-- `s_complete_operation_list` (188-204). -/
def OpState.completeAll (s : OpState) (ops : List Op) (e : Error) : OpState :=
  ops.foldl (fun s op => s.complete op e none) s

/-- `s_next_packet_id` (2753-2759). -/
def nextPacketId (id : Nat) : Nat := if (id + 1) % 65536 = 0 then 1 else id + 1

/-- `UINT16_MAX`. -/
scoped notation "u16max" => 65535

/-- The loop of `aws_mqtt5_operation_bind_packet_id` (2770-2781). -/
def findId (table : AMap Nat Nat) : Nat → Nat → Option Nat
  | 0, _ => none
  | fuel + 1, id =>
    if (table.get id).isSome then findId table fuel (nextPacketId id) else some id

/-- `s_needs_packet_id` (2733-2751). -/
def needsId (p : Outgoing) : Bool := requiresAck p && packetId p == 0

/-- `aws_mqtt5_operation_bind_packet_id` (2761-2785). -/
def OpState.bind (s : OpState) (op : Op) : Option (OpState × Op) :=
  if !needsId op.packet then some (s, op)
  else
    match findId s.table u16max s.nextId with
    | none => none
    | some id => some ({ s with nextId := nextPacketId id }, { op with packet := withPacketId op.packet id })

/-- `s_aws_mqtt5_client_set_current_operation` (1087-1118); the operation has been taken from the queue.
`true` is success. -/
def OpState.setCurrent (s : OpState) (op : Op) : Except Fault (OpState × Bool) :=
  match s.bind op with
  | none => .ok ({ s with log := s.log ++ [.dropped op.uid op.packet] }, false)
  | some (s, op) =>
    match s.encoder.append op.packet with
    | .abort => .error .abort
    | .failed enc => .ok ({ s with encoder := enc, log := s.log ++ [.dropped op.uid op.packet] }, false)
    | .ok enc =>
      .ok ({ s with
        encoder := enc
        current := some op
        log := s.log ++ [.started op.uid op.packet
          ((stepsBytes enc.steps).drop (stepsBytes s.encoder.steps).length)] }, true)

/-- Ack timeout of an operation sent at `now` (3433-3443). -/
def ackDeadline (cfg : Config) (op : Op) (now : Nat) : Nat :=
  let seconds := if op.ackTimeoutSeconds = 0 then cfg.ackTimeoutSeconds else op.ackTimeoutSeconds
  if seconds > 0 then now + Reconnect.convert seconds 1 1000000000 else 18446744073709551615

/-- An operation that needs no acknowledgement has been encoded (3458-3459, 3479). -/
def OpState.finishWrite (s : OpState) (op : Op) : OpState :=
  { s with
    writing := s.writing ++ [op]
    current := none
    log := s.log ++ [.encoded op.uid op.packet] }

/-- An operation that needs an acknowledgement has been encoded (3424-3455, 3479). -/
def OpState.finishAck (cfg : Config) (s : OpState) (op : Op) (now : Nat) : OpState :=
  let op := { op with deadline := ackDeadline cfg op now }
  { s with
    stats := (changeStats s.stats op true true).1
    table := s.table.set (packetId op.packet) op.uid
    timeouts := s.timeouts ++ [op.uid]
    unacked := s.unacked ++ [(changeStats s.stats op true true).2]
    current := none
    log := s.log ++ [.encoded op.uid op.packet] }

/-- The operation being encoded is finished (3418-3459), `aws_mqtt5_client_flow_control_state_on_outbound_operation`
(3643-3660). -/
def OpState.finish (cfg : Config) (s : OpState) (op : Op) (now : Nat) : Except Fault OpState :=
  if isQos1 op.packet && s.tokens == 0 then .error .abort                          -- 3657
  else
    let s := { s with tokens := if isQos1 op.packet then s.tokens - 1 else s.tokens }
    if requiresAck op.packet then
      if packetId op.packet = 0 then .error .abort                                 -- 3422
      else .ok (s.finishAck cfg op now)
    else .ok (s.finishWrite op)

/-- Take the operation with this `uid` out of a list. -/
def takeUid (uid : Nat) : List Op → Option (Op × List Op)
  | [] => none
  | op :: ops =>
    if op.uid = uid then some (op, ops)
    else (takeUid uid ops).map fun r => (r.1, op :: r.2)

/-- Unlink an operation that is known by address, forget its packet id and complete it
(242-245, 3566-3595). -/
def OpState.resolve (s : OpState) (uid id : Nat) (e : Error) (ack : Option Received) : Except Fault OpState :=
  match takeUid uid s.unacked with
  | none => .error .ub
  | some (op, rest) => .ok (({ s with unacked := rest, table := s.table.del id } : OpState).complete op e ack)

/-- Deadline of an operation in the timeout heap. -/
def deadlineOf (ops : List Op) (uid : Nat) : Nat :=
  match ops.find? (·.uid == uid) with
  | some op => op.deadline
  | none => 0

/-- Top of the heap: the earliest deadline, the operation sent first among equals. -/
def earliest (ops : List Op) : List Nat → Option Nat
  | [] => none
  | uid :: rest =>
    match earliest ops rest with
    | none => some uid
    | some u => if deadlineOf ops u < deadlineOf ops uid then some u else some uid

/-- `s_check_timeouts` (206-249). -/
def checkTimeouts (now : Nat) : Nat → OpState → Except Fault OpState
  | 0, s => .ok s
  | fuel + 1, s =>
    match earliest s.unacked s.timeouts with
    | none => .ok s
    | some uid =>
      match s.unacked.find? (·.uid == uid) with
      | none => .error .ub
      | some op =>
        if op.deadline > now then .ok s                                            -- 218-220
        else
          let s := { s with timeouts := s.timeouts.filter (· != uid) }             -- 223
          match s.table.get (packetId op.packet) with
          | none => .ok s                                                          -- 236-240
          | some _ =>
            match s.resolve uid (packetId op.packet) .timeout none with
            | .error f => .error f
            | .ok s => checkTimeouts now fuel s

/-- `s_aws_mqtt5_reset_manual_pub_ack_tables` (623-640). -/
def OpState.resetManual (s : OpState) : OpState :=
  if s.manualCtl.length > 0 then
    { s with manualIds := [], cancelled := s.cancelled ++ s.manualCtl.map (·.1), manualCtl := [] }
  else s

/-- `s_process_unacked_operations_for_disconnect` (2889-2902). -/
def markDisconnected (op : Op) : Op :=
  match op.packet with
  | .publish v =>
    if v.qos != 0 then { op with packet := .publish { v with duplicate := true } }
    else { op with packet := withPacketId op.packet 0 }
  | p => { op with packet := withPacketId p 0 }

/-- `s_filter_unacked_operations_for_offline` (2904-2916). -/
def failsUnacked (b : OfflineBehavior) (p : Outgoing) : Bool := if isQos1 p then false else !retained b p

/-- The queue operations that survive a disconnect, and those that do not (2957-2961). -/
def keep (b : OfflineBehavior) (ops : List Op) : List Op := ops.filter fun op => retained b op.packet
def lose (b : OfflineBehavior) (ops : List Op) : List Op := ops.filter fun op => !retained b op.packet

/-- The same for operations waiting for an acknowledgement (2974-2978). -/
def keepUnacked (b : OfflineBehavior) (ops : List Op) : List Op := ops.filter fun op => !failsUnacked b op.packet
def loseUnacked (b : OfflineBehavior) (ops : List Op) : List Op := ops.filter fun op => failsUnacked b op.packet

/-- `aws_mqtt5_client_on_disconnection_update_operational_state` (2936-2992), except for what completing
a DISCONNECT does to the client. -/
def OpState.onDisconnection (cfg : Config) (s : OpState) : OpState :=
  let queue := s.current.toList ++ s.queued                                        -- 2940-2944
  let done := s.writing                                                            -- 2947
  let s := { s with current := none, writing := [], queued := keep cfg.offline queue }
  let s := s.completeAll done .offlinePolicy
  let s := s.completeAll (lose cfg.offline queue) .offlinePolicy                   -- 2962
  let unacked := s.unacked.map markDisconnected                                    -- 2966
  let s := { s with unacked := keepUnacked cfg.offline unacked }
  let s := s.completeAll (loseUnacked cfg.offline unacked) .offlinePolicy          -- 2979
  ({ s with table := [], timeouts := [], log := s.log ++ [.disconnected] } : OpState).resetManual   -- 2982-2985

/-- The operations completed by it. -/
def OpState.lostOnDisconnection (cfg : Config) (s : OpState) : List Op :=
  s.writing ++ lose cfg.offline (s.current.toList ++ s.queued) ++
    loseUnacked cfg.offline (s.unacked.map markDisconnected)

/-- `aws_mqtt5_client_on_connection_update_operational_state` (3030-3120) with the flow control reset
(3620-3629). -/
def OpState.onConnection (cfg : Config) (settings : Settings) (s : OpState) : OpState :=
  let s :=
    if settings.rejoinedSession then                                               -- 3034-3058
      { s with
        queued := s.unacked.filter (fun op => isQos1 op.packet) ++
          (s.unacked.filter (fun op => !isQos1 op.packet) ++ s.queued)
        unacked := [] }
    else                                                                           -- 3059-3080
      let lost := lose cfg.offline s.unacked
      let s := { s with queued := keep cfg.offline s.unacked ++ s.queued, unacked := [] }
      s.completeAll lost .offlinePolicy
  { s with
    stats := (changeStatsAll s.stats true false s.queued).1                        -- 3083
    queued := (changeStatsAll s.stats true false s.queued).2
    tokens := settings.receiveMaximumFromServer                                    -- 3086
    encoder := { s.encoder with
      resolver := some ((TopicAlias.Outbound.new cfg.outboundAliases).reset settings.topicAliasMaximumToServer) }
    log := s.log ++ [.connected settings] }

/-- `s_aws_mqtt5_client_operational_state_reset` (642-664), not final; the final one also drops the
manual acknowledgements. -/
def OpState.resetAll (s : OpState) (e : Error) : OpState :=
  let queued := s.queued
  let writing := s.writing
  let unacked := s.unacked
  let s := { s with queued := [], writing := [], unacked := [] }
  let s := ((s.completeAll queued e).completeAll writing e).completeAll unacked e
  ({ s with table := [], timeouts := [] } : OpState).resetManual

/-- Insert after the leading PUBACK and PINGREQ operations (1851-1866). -/
def insertPuback (op : Op) : List Op → List Op
  | [] => [op]
  | o :: ops => if isPingOrPuback o.packet then o :: insertPuback op ops else op :: o :: ops

/-- A new operation gets the next `uid`. -/
def OpState.newOp (s : OpState) (p : Outgoing) (ackTimeoutSeconds : Nat := 0) : Op :=
  { uid := s.nextUid, packet := p, ackTimeoutSeconds := ackTimeoutSeconds }

/-- `s_enqueue_operation_front` (581-591) for an operation made by the client itself. -/
def OpState.pushFront (s : OpState) (p : Outgoing) : OpState :=
  { s with queued := s.newOp p :: s.queued, nextUid := s.nextUid + 1 }

/-- `s_aws_mqtt5_client_queue_puback` (1868-1903). -/
def OpState.queuePuback (s : OpState) (id : Nat) : OpState :=
  { s with
    queued := insertPuback (s.newOp (.puback { packetId := id })) s.queued
    nextUid := s.nextUid + 1
    log := s.log ++ [.pubackQueued s.nextUid id] }

/-- `aws_mqtt5_client_submit_operation_internal` (2332-2367) when it accepts. -/
def OpState.accept (s : OpState) (p : Outgoing) (ackTimeoutSeconds : Nat) : OpState :=
  let op := s.newOp (withPacketId p 0) ackTimeoutSeconds                           -- 2363
  { s with
    stats := (changeStats s.stats op true false).1                                 -- 2366
    queued := s.queued ++ [(changeStats s.stats op true false).2]                  -- 2365
    nextUid := s.nextUid + 1
    log := s.log ++ [.submitted op.uid op.packet] }

/-- The same when it rejects (2344-2360): completed without touching the client. -/
def OpState.reject (s : OpState) (p : Outgoing) (e : Error) : OpState :=
  { s with
    nextUid := s.nextUid + 1
    log := s.log ++ [.submitted s.nextUid p, .completed s.nextUid p e none] }

/-! ## Control state -/

/-- `enum aws_mqtt5_client_state`. -/
inductive State where
  | stopped | connecting | mqttConnect | connected | cleanDisconnect | channelShutdown
  | pendingReconnect | terminated
deriving DecidableEq, Repr

/-- The states a user can ask for (2241-2251). -/
inductive Desired where
  | stopped | connected | terminated
deriving DecidableEq, Repr

/-- `enum aws_mqtt5_lifecycle_state`. -/
inductive Lifecycle where
  | none | connecting | connected
deriving DecidableEq, Repr

/-- Lifecycle events seen by the user. -/
inductive LEvent where
  | attempting
  | success
  | failure (e : Error)
  | disconnection (e : Error)
  | stopped
deriving DecidableEq, Repr

/-- The rest of `struct aws_mqtt5_client`. `slot` is `slot != NULL`. `channel` is not in the code: a
channel exists whose shutdown callback has not run. `pingTimeout` is 0 when no PINGRESP is awaited. -/
structure Control where
  state : State := .stopped
  desired : Desired := .stopped
  lifecycle : Lifecycle := .none
  slot : Bool := false
  channel : Bool := false
  hasConnected : Bool := false
  shouldReset : Bool := false
  cleanError : Error := .success
  settings : Settings := {}
  connackDeadline : Nat := 0
  nextPing : Nat := 0
  pingTimeout : Nat := 0
  events : List LEvent := []
deriving DecidableEq, Repr

/-- `s_aws_mqtt5_client_emit_final_lifecycle_event` (343-387) without views. -/
def Control.emitFinal (k : Control) (e : Error) : Control :=
  match k.lifecycle with
  | .none => k
  | .connecting => { k with lifecycle := .none, events := k.events ++ [.failure e] }
  | .connected => { k with lifecycle := .none, events := k.events ++ [.disconnection e] }

/-- With a CONNACK view (369). -/
def Control.emitFinalConnack (k : Control) (e : Error) : Except Fault Control :=
  if k.lifecycle = .connected then .error .abort else .ok (k.emitFinal e)

/-- With a DISCONNECT view (358). -/
def Control.emitFinalDisconnect (k : Control) (e : Error) : Except Fault Control :=
  if k.lifecycle = .connecting then .error .abort else .ok (k.emitFinal e)

/-- The states in which a channel is open. -/
def State.open : State → Bool
  | .mqttConnect => true
  | .connected => true
  | .cleanDisconnect => true
  | _ => false

/-- `s_aws_mqtt5_client_shutdown_channel` (680-705). -/
def Control.shutdownChannel (k : Control) (e : Error) : Control :=
  let e := if e = .success then .other 0 else e                                    -- 681-683
  let k := k.emitFinal e                                                           -- 685
  if !k.state.open then k                                                          -- 687-696
  else if !k.slot then k                                                           -- 698-701
  else { k with state := .channelShutdown }                                        -- 703-704

/-- `aws_mqtt5_client_are_negotiated_settings_valid` (3598-3600). -/
def Control.settingsValid (k : Control) : Bool := k.state == .connected || k.state == .cleanDisconnect

/-- When the next PINGREQ is due (1121-1130). -/
def pingDue (keepAlive now : Nat) : Nat :=
  if Reconnect.convert keepAlive 1 1000000000 = 0 then 18446744073709551615
  else Reconnect.addSat now (Reconnect.convert keepAlive 1 1000000000)

/-- `s_reset_ping` (1120-1134). -/
def Control.resetPing (k : Control) (now : Nat) : Control :=
  { k with nextPing := pingDue k.settings.serverKeepAlive now }

/-- Half the keep-alive interval, in nanoseconds. -/
def halfKeepAlive (keepAlive : Nat) : Nat := Reconnect.convert keepAlive 1 1000000000 / 2

/-- When a PINGRESP has to be there (3284-3297). -/
def pingDeadline (pingTimeoutMs keepAlive now : Nat) : Nat :=
  Reconnect.addSat now
    (if Reconnect.convert pingTimeoutMs 1000 1000000000 = 0 ∨
        Reconnect.convert pingTimeoutMs 1000 1000000000 > halfKeepAlive keepAlive then halfKeepAlive keepAlive
     else Reconnect.convert pingTimeoutMs 1000 1000000000)

/-- `s_on_pingreq_send` (3280-3298). -/
def Control.onPingreqSend (cfg : Config) (k : Control) (now : Nat) : Control :=
  { k with pingTimeout := pingDeadline cfg.pingTimeoutMs k.settings.serverKeepAlive now }

/-! ## The client -/

structure Client where
  ops : OpState := {}
  ctl : Control := {}
deriving DecidableEq, Repr

/-- A new client (2040-2139). -/
def Client.new (cfg : Config) : Client :=
  { ctl := { settings := Settings.init cfg.connect.clientId } }

/-- What completing an operation does to the client: a DISCONNECT closes the channel
(`s_on_disconnect_operation_complete`, 723-728). -/
def Control.onComplete (k : Control) (p : Outgoing) (e : Error) : Control :=
  if isDisconnect p then k.shutdownChannel (if e ≠ .success then e else k.cleanError) else k

def Control.onCompleteAll (k : Control) (ops : List Op) (e : Error) : Control :=
  ops.foldl (fun k op => k.onComplete op.packet e) k

/-- `s_complete_operation` (167-186). -/
def Client.complete (c : Client) (op : Op) (e : Error) (ack : Option Received) : Client :=
  { ops := c.ops.complete op e ack, ctl := c.ctl.onComplete op.packet e }

/-- `s_aws_mqtt5_client_shutdown_channel_with_disconnect` (707-721). -/
def Client.shutdownWith (c : Client) (e : Error) (v : DisconnectView) : Client :=
  if c.ctl.state = .connected ∨ c.ctl.state = .mqttConnect then
    { ops := c.ops.pushFront (.disconnect v)
      ctl := { c.ctl with cleanError := e, state := .cleanDisconnect } }
  else { c with ctl := c.ctl.shutdownChannel e }

/-- `s_aws_mqtt5_client_shutdown_channel_clean` (730-752). -/
def Client.shutdownClean (c : Client) (e : Error) (reason : Nat) : Client :=
  match newDisconnect { reasonCode := reason } with
  | none => { c with ctl := c.ctl.shutdownChannel e }
  | some v => c.shutdownWith e v

/-- `s_aws_mqtt5_client_emit_stopped_lifecycle_event` (292-302). -/
def Control.emitStopped (k : Control) : Control := { k with events := k.events ++ [.stopped] }

/-- `s_change_current_state_to_stopped` (668-678). -/
def Client.toStopped (c : Client) : Client :=
  let k := { c.ctl with state := .stopped }
  let k := k.onCompleteAll (c.ops.queued ++ c.ops.writing ++ c.ops.unacked) .userStop
  { ops := c.ops.resetAll .userStop
    ctl := ({ k with hasConnected := false } : Control).emitStopped }

/-- `s_change_current_state_to_terminated` (1380-1384) with the final reset (251-284, 2876-2880). -/
def Client.toTerminated (c : Client) : Client :=
  let k := { c.ctl with state := .terminated }
  let k := k.onCompleteAll (c.ops.queued ++ c.ops.writing ++ c.ops.unacked) .terminated
  let s := c.ops.resetAll .terminated
  { ops := { s with manualIds := [], manualCtl := [], cancelled := [] }, ctl := k }

/-- `s_change_current_state_to_connecting` (1038-1085); `kickOff` is the error of starting the
connection, if it failed. -/
def Client.toConnecting (c : Client) (kickOff : Option Error) : Client :=
  let k := { c.ctl with
    state := .connecting, cleanError := .success, shouldReset := false,
    lifecycle := .connecting, events := c.ctl.events ++ [.attempting] }
  match kickOff with
  | none => { c with ctl := k }
  | some e => { c with ctl := { k.emitFinal e with state := .pendingReconnect } }

/-- When a CONNACK has to be there (1248-1255). -/
def connackDeadline (timeoutMs now : Nat) : Nat :=
  now + Reconnect.convert (if timeoutMs = 0 then 10000 else timeoutMs) 1000 1000000000

/-- `s_change_current_state_to_mqtt_connect` (1204-1262), from `s_mqtt5_client_setup`. -/
def Client.toMqttConnect (cfg : Config) (c : Client) (now : Nat) : Except Fault Client :=
  if c.ctl.state ≠ .connecting then .error .abort                                  -- 1205
  else if c.ops.current ≠ none then .error .abort                                  -- 1206
  else
    let k := { c.ctl with state := .mqttConnect }
    if k.shouldReset then .ok { c with ctl := k.shutdownChannel .connectionReset }
    else
      let s := { c.ops with pendingWrite := false, encoder := { c.ops.encoder with steps := [] } }
      let r := connectView cfg.connect cfg.session k.hasConnected cfg.inboundAliases k.settings
      let k := { k with settings := r.1 }
      match newConnect r.2 with
      | none => .ok { ops := s, ctl := k.shutdownChannel .connectValidation }      -- 1233-1244
      | some v =>
        .ok { ops := s.pushFront (.connect v)
              ctl := { k with connackDeadline := connackDeadline cfg.connackTimeoutMs now } }

/-- The control part of `s_mqtt5_client_shutdown_final` (758-771); `lost` are the operations completed by
773. -/
def Control.channelGone (k : Control) (lost : List Op) (e : Error) : Control :=
  ({ k.emitFinal (if e = .success then .hangup else e) with slot := false, channel := false } :
    Control).onCompleteAll lost .offlinePolicy

/-- `s_mqtt5_client_shutdown_final` (754-780) with 793-795. -/
def Client.shutdownFinal (cfg : Config) (c : Client) (e : Error) : Client :=
  let k := c.ctl.channelGone (c.ops.lostOnDisconnection cfg) e
  let s := c.ops.onDisconnection cfg                                               -- 773
  if k.desired = .connected then ⟨s, { k with state := .pendingReconnect }⟩
  else Client.toStopped ⟨s, k⟩

/-- `s_mqtt5_client_setup` (801-860); `err` is the error of the channel setup. Inserting the slot into
the new channel does not fail. -/
def Client.setup (cfg : Config) (c : Client) (err : Option Error) (now : Nat) : Except Fault Client :=
  match err with
  | some e => .ok (c.shutdownFinal cfg e)
  | none =>
    if c.ctl.state ≠ .connecting then .error .abort                                -- 819
    else if c.ctl.desired ≠ .connected then
      .ok { c with ctl := { c.ctl with state := .channelShutdown, channel := true } }   -- 856-859
    else ({ c with ctl := { c.ctl with slot := true, channel := true } } : Client).toMqttConnect cfg now

/-- `s_change_current_state_to_connected` (1280-1291) and the event after it (1777). -/
def Client.toConnected (cfg : Config) (c : Client) (now : Nat) : Client :=
  let lost := if c.ctl.settings.rejoinedSession then [] else lose cfg.offline c.ops.unacked
  let k := ({ c.ctl with state := .connected } : Control).onCompleteAll lost .offlinePolicy
  let k := ({ k with hasConnected := true, pingTimeout := 0 } : Control).resetPing now
  { ops := c.ops.onConnection cfg c.ctl.settings
    ctl := { k with lifecycle := .connected, events := k.events ++ [.success] } }

/-- `s_aws_mqtt5_client_on_connack` (1731-1778). -/
def Client.onConnack (cfg : Config) (c : Client) (v : ConnackView) (now : Nat) : Except Fault Client :=
  if v.reasonCode ≥ 128 then                                                       -- 1736-1752
    match c.ctl.emitFinalConnack .connackRefused with
    | .error f => .error f
    | .ok k => .ok { c with ctl := k.shutdownChannel .connackRefused }
  else
    let k := { c.ctl with settings := c.ctl.settings.applyConnack v }              -- 1754
    if k.settings.rejoinedSession && !shouldResume cfg.session k.hasConnected then -- 1757-1763
      match k.emitFinalConnack .sessionMismatch with
      | .error f => .error f
      | .ok k => .ok { c with ctl := k.shutdownChannel .sessionMismatch }
    else .ok (({ c with ctl := k } : Client).toConnected cfg now)

/-- Error of `aws_mqtt5_operation_validate_vs_connection_settings` (mqtt5_options_storage.c:267-311). -/
def Client.invalid (cfg : Config) (c : Client) (p : Outgoing) : Option Error :=
  if c.ctl.settingsValid &&
      (match encodedSize p with
      | none => true
      | some n => n > c.ctl.settings.maximumPacketSizeToServer) then some .packetValidation
  else
    match p with
    | .publish v =>                                                                -- 1767-1793
      if c.ctl.settingsValid && (v.qos > c.ctl.settings.maximumQos ||
          (v.retain && !c.ctl.settings.retainAvailable)) then some .publishValidation
      else none
    | .disconnect v =>                                                             -- 1341-1366
      if v.sessionExpiry.any (· > 0) && !cfg.connect.sessionExpiry.any (· > 0) then some .disconnectValidation
      else none
    | _ => none

/-! ## Servicing the queue -/

/-- What one run of the service task finds outside the client. The functions give the value at the `k`th
round of the loop in `aws_mqtt5_client_service_operational_state`. -/
structure Env where
  /-- Clock reading of the service task. -/
  now : Nat := 1
  /-- Clock readings of the loop. -/
  loopNow : Nat → Nat := fun _ => 1
  /-- Clock reading when a PINGREQ has been encoded. -/
  pingNow : Nat := 1
  /-- Clock reading when a PINGREQ is queued. -/
  queueNow : Nat := 1
  throughputWait : Nat → Nat := fun _ => 0
  throughputOk : Bool := true
  publishWait : Nat → Nat := fun _ => 0
  /-- The publish rate limiter lets this operation pass. -/
  publishOk : Nat → Bool := fun _ => true
  /-- Handing the message to the channel fails. -/
  sendFails : Option Error := none
  /-- Starting a connection fails. -/
  kickOff : Option Error := none
  /-- The reconnect delay is over. -/
  reconnectDue : Bool := true

/-- `s_aws_mqtt5_client_has_pending_operational_work` (3122-3149). -/
def Client.pendingWork (c : Client) : Bool :=
  match c.ops.queued with
  | [] => false
  | op :: _ =>
    match c.ctl.state with
    | .mqttConnect => isConnect op.packet
    | .cleanDisconnect => isDisconnect op.packet
    | .connected => true
    | _ => false

/-- `aws_mqtt5_client_flow_control_state_get_next_operation_service_time` (3661-3690). -/
def flowTime (cfg : Config) (tokens publishWait : Nat) (p : Outgoing) (now : Nat) : Option Nat :=
  if !isPublish p then some now
  else if cfg.extended && publishWait > 0 then some (now + publishWait)
  else if !isQos1 p then some now
  else if tokens > 0 then some now
  else none

/-- `s_aws_mqtt5_client_compute_next_operation_flow_control_service_time` (3151-3169). -/
def Client.operationTime (cfg : Config) (c : Client) (publishWait : Nat) (p : Outgoing) (now : Nat) : Option Nat :=
  match c.ctl.state with
  | .mqttConnect => some now
  | .cleanDisconnect => some now
  | .connected => flowTime cfg c.ops.tokens publishWait p now
  | _ => none

/-- `s_compute_throughput_throttle_wait` (3199-3214). -/
def Client.throttledUntil (cfg : Config) (c : Client) (wait now : Nat) : Nat :=
  if c.ctl.settingsValid && cfg.extended then Reconnect.addSat now wait else now

/-- `s_aws_mqtt5_client_compute_operational_state_service_time` (3216-3255). -/
def Client.serviceTime (cfg : Config) (c : Client) (throughputWait publishWait now : Nat) : Option Nat :=
  if c.ops.pendingWrite then none
  else if c.throttledUntil cfg throughputWait now > now then some (c.throttledUntil cfg throughputWait now)
  else if c.ops.current.isSome then some now
  else if !c.pendingWork then none
  else
    match c.ops.queued with
    | [] => none
    | op :: _ => c.operationTime cfg publishWait op.packet now

/-- What taking an operation from the queue comes to. -/
inductive Taken where
  | nothing
  | next (op : Op)
  | failed
deriving DecidableEq, Repr

/-- The inner loop (3361-3390); the list is the queue. -/
def Client.takeNext (cfg : Config) (env : Env) : List Op → Client → Client × Taken
  | [], c => (c, .nothing)
  | op :: rest, c =>
    if cfg.extended && isPublish op.packet && !env.publishOk op.uid then (c, .nothing)   -- 3369
    else
      let c := { c with ops := { c.ops with queued := rest } }                     -- 3374
      match c.invalid cfg op.packet with
      | none => (c, .next op)
      | some e =>
        if isDisconnect op.packet then (c.complete op e none, .failed)             -- 3383-3389
        else takeNext cfg env rest (c.complete op e none)

/-- Make sure that there is a current operation if there can be one (3355-3396); the error ends the
loop. -/
def Client.load (cfg : Config) (env : Env) (c : Client) : Except Fault (Client × Option Error) :=
  if c.ops.current.isSome then .ok (c, none)
  else
    match c.takeNext cfg env c.ops.queued with
    | (c, .nothing) => .ok (c, none)
    | (c, .failed) => .ok (c, some .processingFailure)
    | (c, .next op) =>
      match c.ops.setCurrent op with
      | .error f => .error f
      | .ok (s, ok) => .ok ({ c with ops := s }, if ok then none else some .processingFailure)

/-- The current operation has been encoded (3417-3479). -/
def Client.finish (cfg : Config) (c : Client) (op : Op) (now pingNow : Nat) : Except Fault Client :=
  match c.ops.finish cfg op now with
  | .error f => .error f
  | .ok s => .ok { ops := s, ctl := if op.packet = .pingreq then c.ctl.onPingreqSend cfg pingNow else c.ctl }

/-- The loop of `aws_mqtt5_client_service_operational_state` (3353-3487). `fuel` is the number of rounds
left; every round takes an operation from the queue, except for the first. -/
def Client.serviceLoop (cfg : Config) (env : Env) : Nat → Nat → Buf → Client →
    Except Fault (Client × Buf × Option Error)
  | 0, _, buf, c => .ok (c, buf, none)
  | fuel + 1, k, buf, c =>
    match c.load cfg env with
    | .error f => .error f
    | .ok (c, some e) => .ok (c, buf, some e)
    | .ok (c, none) =>
      match c.ops.current with
      | none => .ok (c, buf, none)                                                 -- 3399-3401
      | some op =>
        match c.ops.encoder.encodeToBuffer buf with
        | (.outOfRoom, buf, enc) => .ok ({ c with ops := { c.ops with encoder := enc } }, buf, none)
        | (.finished, buf, enc) =>
          match ({ c with ops := { c.ops with encoder := enc } } : Client).finish cfg op (env.loopNow k)
              env.pingNow with
          | .error f => .error f
          | .ok c =>
            if c.serviceTime cfg (env.throughputWait (k + 1)) (env.publishWait (k + 1)) (env.loopNow (k + 1)) =
                some (env.loopNow (k + 1)) then c.serviceLoop cfg env fuel (k + 1) buf
            else .ok (c, buf, none)

/-- `aws_mqtt5_client_service_operational_state` (3328-3513); messages have a capacity of
`AWS_MQTT5_IO_MESSAGE_DEFAULT_LENGTH`. -/
def Client.serviceOps (cfg : Config) (env : Env) (c : Client) : Except Fault (Client × Option Error) :=
  if c.serviceTime cfg (env.throughputWait 0) (env.publishWait 0) (env.loopNow 0) ≠ some (env.loopNow 0) then
    .ok (c, none)                                                                  -- 3335-3338
  else if c.ctl.settingsValid && cfg.extended && !env.throughputOk then .ok (c, none)   -- 3340-3342
  else
    match c.serviceLoop cfg env (c.ops.queued.length + 1) 0 { cap := 4096, data := [] } with
    | .error f => .error f
    | .ok (c, _, some e) => .ok (c, some e)                                        -- 3489-3492
    | .ok (c, buf, none) =>
      if buf.data.length = 0 then .ok (c, none)                                    -- 3495-3498
      else
        match env.sendFails with
        | some e => .ok ({ c with ops := { c.ops with pendingWrite := false } }, some e)   -- 3505-3510
        | none =>
          .ok ({ c with ops := { c.ops with pendingWrite := true, log := c.ops.log ++ [.wrote buf.data] } }, none)

/-- An error of `serviceOps` closes the channel (1466-1477, 1540-1551, 1555-1566). -/
def Client.afterService (r : Client × Option Error) : Client × Bool :=
  match r.2 with
  | none => (r.1, true)
  | some e => ({ r.1 with ctl := r.1.ctl.shutdownChannel e }, false)

/-- `s_check_timeouts` on the client. -/
def Client.checkTimeouts (c : Client) (now : Nat) : Except Fault Client :=
  match Client5.checkTimeouts now c.ops.timeouts.length c.ops with
  | .error f => .error f
  | .ok s => .ok { c with ops := s }

/-- `s_aws_mqtt5_client_queue_ping` (1480-1489). -/
def Client.queuePing (c : Client) (now : Nat) : Client :=
  let s := c.ops.pushFront .pingreq
  { ops := { s with log := s.log ++ [.pingQueued c.ops.nextUid] }, ctl := c.ctl.resetPing now }

/-- `s_service_state_mqtt_connect` (1450-1478). -/
def Client.serviceMqttConnect (cfg : Config) (env : Env) (c : Client) : Except Fault Client :=
  if c.ctl.desired ≠ .connected then
    .ok { c with ctl := (c.ctl.emitFinal .userStop).shutdownChannel .userStop }
  else if env.now ≥ c.ctl.connackDeadline then
    .ok { c with ctl := (c.ctl.emitFinal .connackTimeout).shutdownChannel .connackTimeout }
  else
    match c.serviceOps cfg env with
    | .error f => .error f
    | .ok r => .ok (Client.afterService r).1

/-- `s_service_state_connected` (1491-1552). -/
def Client.serviceConnected (cfg : Config) (env : Env) (c : Client) : Except Fault Client :=
  if c.ctl.desired ≠ .connected then
    .ok { c with ctl := (c.ctl.emitFinal .userStop).shutdownChannel .userStop }
  else if env.now ≥ c.ctl.pingTimeout ∧ c.ctl.pingTimeout ≠ 0 then                 -- 1501-1509
    .ok (({ c with ctl := c.ctl.emitFinal .pingTimeout } : Client).shutdownClean .pingTimeout 141)
  else
    let c := if env.now ≥ c.ctl.nextPing then c.queuePing env.queueNow else c      -- 1511-1524
    match c.checkTimeouts env.now with                                             -- 1538
    | .error f => .error f
    | .ok c =>
      match c.serviceOps cfg env with
      | .error f => .error f
      | .ok r => .ok (Client.afterService r).1

/-- `s_service_state_clean_disconnect` (1554-1569). -/
def Client.serviceCleanDisconnect (cfg : Config) (env : Env) (c : Client) : Except Fault Client :=
  match c.serviceOps cfg env with
  | .error f => .error f
  | .ok r =>
    match Client.afterService r with
    | (c, false) => .ok c
    | (c, true) => c.checkTimeouts env.now

/-- `s_mqtt5_service_task_fn` (1587-1636) with 1434-1444 and 1575-1585. -/
def Client.service (cfg : Config) (env : Env) (c : Client) : Except Fault Client :=
  match c.ctl.state with
  | .stopped =>
    match c.ctl.desired with
    | .connected => .ok (c.toConnecting env.kickOff)
    | .terminated => .ok c.toTerminated
    | .stopped => .ok c
  | .mqttConnect => c.serviceMqttConnect cfg env
  | .connected => c.serviceConnected cfg env
  | .cleanDisconnect => c.serviceCleanDisconnect cfg env
  | .pendingReconnect =>
    if c.ctl.desired ≠ .connected then .ok c.toStopped
    else if env.reconnectDue then .ok (c.toConnecting env.kickOff)
    else .ok c
  | _ => .ok c

/-! ## Other events -/

/-- `s_aws_mqtt5_on_socket_write_completion` (1154-1194). -/
def Client.writeComplete (c : Client) (e : Error) : Client :=
  let s := { c.ops with pendingWrite := false }
  let k := if e ≠ .success ∧ c.ctl.state.open then c.ctl.shutdownChannel e else c.ctl
  { ops := ({ s with writing := [] } : OpState).completeAll s.writing e
    ctl := k.onCompleteAll s.writing e }

/-- `s_aws_mqtt5_client_validate_ack_reason_code_count` (3515-3535): the view of an operation of another
type is read as if it were of the expected one. -/
def countMatches (p : Outgoing) (ack : Received) : Except Fault Bool :=
  match ack with
  | .suback a =>
    match p with
    | .subscribe v => .ok (v.subscriptions.length = a.reasonCodes.length)
    | _ => .error .ub
  | .unsuback a =>
    match p with
    | .unsubscribe v => .ok (v.topicFilters.length = a.reasonCodes.length)
    | _ => .error .ub
  | _ => .ok true

/-- `aws_mqtt5_client_operational_state_handle_ack` (3537-3596) after the flow control part. -/
def Client.handleAck (c : Client) (id : Nat) (ack : Received) : Except Fault Client :=
  match c.ops.table.get id with
  | none => .ok c                                                                  -- 3553-3559
  | some uid =>
    match takeUid uid c.ops.unacked with
    | none => .error .ub
    | some (op, rest) =>
      let c := { c with ops := { c.ops with unacked := rest, table := c.ops.table.del id } }   -- 3566-3567
      match countMatches op.packet ack with
      | .error f => .error f
      | .ok true => .ok (c.complete op .success (some ack))                        -- 3595
      | .ok false =>
        let c := c.complete op .protocolError none                                 -- 3583
        if c.ctl.state = .connected then .ok (c.shutdownClean .protocolError 130)
        else .ok { c with ctl := c.ctl.shutdownChannel .protocolError }

/-- `aws_mqtt5_client_flow_control_state_on_puback` (3631-3641). -/
def Client.onPuback (c : Client) (id : Nat) : Client :=
  { c with ops := { c.ops with
    tokens := min c.ctl.settings.receiveMaximumFromServer (c.ops.tokens + 1)
    log := c.ops.log ++ [.pubackReceived id] } }

/-- `aws_mqtt5_client_acquire_publish_acknowledgement` (2637-2731). -/
def OpState.acquire (s : OpState) (id : Nat) : OpState × Nat :=
  match s.manualIds.get id with
  | some ctl => (s, ctl)                                                           -- 2654-2660
  | none =>
    ({ s with
      manualIds := s.manualIds.set id s.nextCtl
      manualCtl := s.manualCtl.set s.nextCtl id
      nextCtl := s.nextCtl + 1 }, s.nextCtl)

/-- A PUBLISH arrives (1939-1966); `acquire` is whether a publish callback takes over the
acknowledgement. -/
def OpState.onPublish (s : OpState) (v : PublishView) (acquire : Bool) : OpState :=
  if v.qos = 0 then { s with log := s.log ++ [.delivered v none] }                 -- 1944, 2645
  else
    let r := if acquire then ((s.acquire v.packetId).1, some (s.acquire v.packetId).2) else (s, none)
    let s := { r.1 with log := r.1.log ++ [.delivered v r.2] }
    if (s.manualIds.get v.packetId).isSome then s else s.queuePuback v.packetId    -- 1947-1952

/-- `s_aws_mqtt5_client_connected_on_packet_received` (1905-1978). -/
def Client.onPacketConnected (c : Client) (p : Received) (acquire : Bool) : Except Fault Client :=
  match p with
  | .pingresp => .ok { c with ctl := { c.ctl with pingTimeout := 0 } }
  | .disconnect _ =>
    match c.ctl.emitFinalDisconnect .disconnectReceived with
    | .error f => .error f
    | .ok k => .ok { c with ctl := k.shutdownChannel .disconnectReceived }
  | .suback v => c.handleAck v.packetId p
  | .unsuback v => c.handleAck v.packetId p
  | .publish v => .ok { c with ops := c.ops.onPublish v acquire }
  | .puback v => (c.onPuback v.packetId).handleAck v.packetId p
  | .connack _ => .ok c

/-- `s_aws_mqtt5_client_on_packet_received` (1980-2006) with 1820-1833. -/
def Client.onPacket (cfg : Config) (c : Client) (p : Received) (acquire : Bool) (now : Nat) :
    Except Fault Client :=
  match c.ctl.state with
  | .mqttConnect =>
    match p with
    | .connack v => c.onConnack cfg v now
    | _ => .ok (c.shutdownClean .protocolError 130)
  | .connected => c.onPacketConnected p acquire
  | .cleanDisconnect => c.onPacketConnected p acquire
  | _ => .ok c

/-- Failure of the decoder (1662-1675). -/
def Client.readFailed (c : Client) (e : Error) : Client :=
  if e = .protocolError ∧ c.ctl.state = .connected then c.shutdownClean e 130
  else { c with ctl := c.ctl.shutdownChannel e }

/-- `aws_mqtt5_client_submit_operation_internal` (2332-2367). -/
def Client.submit (cfg : Config) (c : Client) (p : Outgoing) (ackTimeoutSeconds : Nat) (cancelled : Bool) :
    Client :=
  if cancelled then { c with ops := c.ops.reject p .terminated }                   -- 2344-2347
  else if c.ctl.state ≠ .connected ∧ !retained cfg.offline p then
    { c with ops := c.ops.reject p .offlinePolicy }                                -- 2353-2360
  else { c with ops := c.ops.accept p ackTimeoutSeconds }

/-- `aws_mqtt5_client_change_desired_state` (2173-2196). -/
def Client.setDesired (c : Client) (d : Desired) (disconnect : Option DisconnectView) : Client :=
  if c.ctl.desired = d then c
  else
    let c := { c with ctl := { c.ctl with desired := d } }
    match disconnect with
    | some v => if d = .stopped then c.shutdownWith .userStop v else c
    | none => c

/-- `s_mqtt5_manual_pub_ack_task_fn` (2504-2586). -/
def OpState.invoke (s : OpState) (ctl : Nat) : OpState :=
  match s.manualCtl.get ctl with
  | some id =>                                                                     -- 2523-2549
    let s : OpState := { s with
      manualIds := s.manualIds.del id, manualCtl := s.manualCtl.del ctl
      log := s.log ++ [.invoked ctl (some id)] }
    s.queuePuback id
  | none =>                                                                        -- 2551-2581
    { s with cancelled := s.cancelled.filter (· != ctl), log := s.log ++ [.invoked ctl none] }

/-- `aws_mqtt5_client_reset_connection` (3757-3777). -/
def Client.resetConnection (c : Client) : Client :=
  match c.ctl.state with
  | .mqttConnect => { c with ctl := c.ctl.shutdownChannel .connectionReset }
  | .connected => { c with ctl := c.ctl.shutdownChannel .connectionReset }
  | .connecting => { c with ctl := { c.ctl with shouldReset := true } }
  | _ => c

/-- Callbacks and tasks of the event loop. -/
inductive Event where
  | submit (p : Outgoing) (ackTimeoutSeconds : Nat) (cancelled : Bool)
  | setDesired (d : Desired) (disconnect : Option DisconnectView)
  | service (env : Env)
  | setup (err : Option Error) (now : Nat)
  | shutdown (e : Error)
  | writeComplete (e : Error)
  | packet (p : Received) (acquire : Bool) (now : Nat)
  | readFailed (e : Error)
  | invoke (ctl : Nat)
  | resetConnection

def step (cfg : Config) (c : Client) : Event → Except Fault Client
  | .submit p t x => .ok (c.submit cfg p t x)
  | .setDesired d v => .ok (c.setDesired d v)
  | .service env => c.service cfg env
  | .setup err now => c.setup cfg err now
  | .shutdown e => .ok (c.shutdownFinal cfg e)
  | .writeComplete e => .ok (c.writeComplete e)
  | .packet p acquire now => c.onPacket cfg p acquire now
  | .readFailed e => .ok (c.readFailed e)
  | .invoke ctl => .ok { c with ops := c.ops.invoke ctl }
  | .resetConnection => .ok c.resetConnection

/-- The numbers of a packet the decoder delivers are in the range of their types. -/
def inRange : Received → Bool
  | .connack v =>
    v.sessionExpiry.all (· < 4294967296) && v.receiveMaximum.all (· < 65536) &&
      v.maximumPacketSize.all (· < 4294967296) && v.topicAliasMaximum.all (· < 65536) &&
      v.serverKeepAlive.all (· < 65536)
  | .publish v => v.packetId < 65536
  | .puback v => v.packetId < 65536
  | .suback v => v.packetId < 65536
  | .unsuback v => v.packetId < 65536
  | _ => true

/-- When the event loop can run an event. The user submits PUBLISH, SUBSCRIBE and UNSUBSCRIBE packets
that option validation let through. The bootstrap reports the setup of a channel once per attempt and its
shutdown once per channel. A channel only carries data while its slot is there. Nothing runs after termination, and
the task of a last release asks for termination only once. -/
def Enabled (c : Client) : Event → Prop
  | .submit p _ cancelled => isUser p ∧ Submittable p ∧ (c.ctl.state = .terminated → cancelled)
  | .setDesired d v => c.ctl.state ≠ .terminated ∧ c.ctl.desired ≠ .terminated ∧ (d ≠ .stopped → v = none)
  | .service _ => c.ctl.state ≠ .terminated
  | .setup _ _ => c.ctl.state = .connecting
  | .shutdown _ => c.ctl.channel
  | .writeComplete _ => c.ops.pendingWrite ∧ c.ctl.slot
  | .packet p _ _ => c.ctl.slot ∧ inRange p
  | .readFailed _ => c.ctl.slot
  | .invoke _ => c.ctl.state ≠ .terminated
  | .resetConnection => c.ctl.state ≠ .terminated
where
  Submittable : Outgoing → Prop
    | .publish v => ∃ u, newPublish u = some v
    | .subscribe v => ∃ u, newSubscribe u = some v
    | .unsubscribe v => ∃ u, newUnsubscribe u = some v
    | _ => False

/-- States that histories of events lead to. -/
inductive Reachable (cfg : Config) : Client → Prop where
  | new : Reachable cfg (Client.new cfg)
  | step {c c' : Client} {e : Event} : Reachable cfg c → Enabled c e → step cfg c e = .ok c' → Reachable cfg c'

end Mqtt.Client5
