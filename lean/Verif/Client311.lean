import Verif.Map

/-!
The MQTT 3.1.1 connection as a state machine: requests, packet ids, retries, statistics, connects and disconnects
(source/client.c and source/client_channel_handler.c; line numbers refer to client.c unless marked "ch").

A request is named by its place in the order of submission (its uid); those whose memory has not been given back to
`requests_pool` are in `reqs`. An event is an API call, a task, a packet from the server or a callback of the channel
bootstrap. `s_mqtt_client_shutdown` and `connect` invoke callbacks between critical sections; they are cut there, `busy`
says where they are, and API calls of other threads or from the callbacks may come in between. Elsewhere a call made
from a callback is a call made after the event. Outgoing tasks are run in any order; a task that is on a channel which
has been shut down is cancelled some time later (`aws_channel_schedule_task_now` by a thread that lost the race).

Memory errors are the fault `memory`: an `aws_linked_list_remove` of a request that is in none of the lists of the
connection, a request freed while its task is scheduled, a user data pointer cast to a type it does not have, a use of
a NULL slot or reconnect task. Left out: contents of packets, subscriptions, times (timeouts are events that may come
at any time), TLS, allocation failures, logging.

With websockets, what `s_websocket_connect` (1563-1603) starts is an attempt to set up a channel as well: the transformation of
the handshake request by the user, on any thread, the opening of the websocket, and the setup callback, which is scheduled on the
event loop if one of them fails (1612-1695). `s_on_websocket_shutdown` (1488-1498) is the shutdown callback.
-/
namespace Mqtt.Client311

/-- `enum aws_mqtt_client_connection_state` (client_impl.h:58-64). -/
inductive State where
  | connecting
  | connected
  | reconnecting
  | disconnecting
  | disconnected
deriving DecidableEq, Repr

/-- What a request is: the `send_request` function and user data given to `mqtt_create_request` (2342, 2510, 2809,
3046, 3345, 3469). -/
inductive Kind where
  | subscribe (topics : Nat)
  | resubscribe
  | unsubscribe
  | publish (qos : Nat)
  | ping
deriving DecidableEq, Repr

/-- `noRetry` is set for publishes with QoS 0 (3343) and for pings (3469). -/
def Kind.retryable : Kind → Bool
  | .publish qos => qos ≠ 0
  | .ping => false
  | _ => true

/-- Requests whose user data is a `struct subscribe_task_arg`. -/
def Kind.isSubscribe : Kind → Bool
  | .subscribe _ => true
  | .resubscribe => true
  | _ => false

/-- The topics of a new request. -/
def Kind.topics : Kind → Nat
  | .subscribe n => n
  | _ => 0

/-- `struct aws_mqtt_request` (client_impl.h:129-154); `topics` is the length of the list of topics of its
`struct subscribe_task_arg`, `incomplete` and `unacked` are `statistic_state_flags`. -/
structure Request where
  kind : Kind
  id : Nat
  size : Nat
  topics : Nat := 0
  initiated : Bool := false
  incomplete : Bool := false
  unacked : Bool := false
deriving DecidableEq, Repr

/-- Error codes given to completion callbacks. -/
inductive Outcome where
  | success
  | failed
  | timeout
  | notConnected
  | cleanSession
  | destroyed
deriving DecidableEq, Repr

/-- Why `mqtt_create_request` returns 0. -/
inductive Refusal where
  | disconnecting
  | notConnected
  | full
deriving DecidableEq, Repr

/-- Packets from the server. `other` are those with the default handler, `malformed` those a handler fails to decode. -/
inductive Packet where
  | connack (accepted : Bool)
  | publish (qos id : Nat)
  | puback (id : Nat)
  | pubrec (id : Nat)
  | pubrel (id : Nat)
  | pubcomp (id : Nat)
  | suback (id codes : Nat)
  | unsuback (id : Nat)
  | pingresp
  | other
  | malformed
deriving DecidableEq, Repr

inductive Trace where
  /-- `mqtt_create_request` returned a packet id. -/
  | accepted (uid id : Nat) (kind : Kind) (size : Nat)
  /-- `mqtt_create_request` returned 0. -/
  | refused (why : Refusal)
  /-- The completion callback of a request (there is none for a ping). -/
  | completed (uid : Nat) (outcome : Outcome)
  /-- A request has been sent on a channel. -/
  | sent (uid chan : Nat) (dup : Bool)
  /-- `connect` returned success. -/
  | connecting
  /-- `connect` returned an error. -/
  | connectRefused
  /-- `on_connection_complete`. -/
  | connectionComplete (ok : Bool)
  | resumed
  | interrupted
  /-- `on_disconnect` and `on_closed`. -/
  | disconnected
  /-- A channel is set up and CONNECT has been sent on it. -/
  | opened (chan : Nat)
  /-- A packet has been acted upon. -/
  | processed (chan : Nat) (p : Packet)
  /-- PUBACK, PUBREC, PUBREL or PUBCOMP sent. -/
  | replied (id : Nat)
  /-- `aws_channel_shutdown` called because of a packet from the server. -/
  | rejected (chan : Nat)
  | destroyed
deriving DecidableEq, Repr

/-- What follows the cancellation of requests for a clean session. -/
inductive Next where
  | connect
  | shutdown (prev : State)
deriving DecidableEq, Repr

/-- Where `s_mqtt_client_shutdown` or `connect` are. -/
inductive Busy where
  | idle
  /-- Requests taken from the lists, and those whose callback has still to be invoked. -/
  | cancelling (all todo : List Nat) (next : Next)
  /-- `on_interrupted` has been invoked (399-424). -/
  | interrupted
  /-- `connect` is about to call `s_mqtt_client_connect` (1884). -/
  | launching
deriving DecidableEq, Repr

/-- `connect` has been called and has not returned. -/
def Busy.inConnect : Busy → Bool
  | .cancelling _ _ .connect => true
  | .launching => true
  | _ => false

/-- `reconnect_task`. -/
inductive Reconnect where
  | absent
  | idle
  | scheduled
deriving DecidableEq, Repr

/-- `struct aws_mqtt_client_connection_311_impl` (client_impl.h). -/
structure Conn where
  state : State := .disconnected
  clean : Bool := false
  /-- `connection_count` -/
  count : Nat := 0
  /-- `synced_data.packet_id` -/
  lastId : Nat := 0
  nextUid : Nat := 0
  reqs : AMap Nat Request := []
  /-- `outstanding_requests_table` -/
  table : AMap Nat Nat := []
  /-- `pending_requests_list` -/
  pending : List Nat := []
  /-- `ongoing_requests_list` -/
  ongoing : List Nat := []
  /-- Outgoing tasks that are scheduled, and the channel they are scheduled on. -/
  tasks : List (Nat × Nat) := []
  /-- Requests with a timeout task. -/
  timers : List Nat := []
  /-- The bootstrap is setting up a channel. -/
  opening : Bool := false
  /-- The channel that is set up and has not been shut down. -/
  chan : Option Nat := none
  nextChan : Nat := 0
  /-- `slot` is not NULL. -/
  slot : Bool := false
  /-- The channel is shutting down. -/
  closing : Bool := false
  /-- `s_mqtt_disconnect_task` is scheduled. -/
  disconnectTask : Bool := false
  reconnect : Reconnect := .absent
  busy : Busy := .idle
  /-- References of users, and the one held by the connection from `connect` until it is disconnected. -/
  held : Nat := 1
  pinned : Bool := false
  destroyed : Bool := false
  /-- `operation_statistics_impl`; the real counters are these modulo 2^64. -/
  incompleteCount : Int := 0
  incompleteSize : Int := 0
  unackedCount : Int := 0
  unackedSize : Int := 0
  log : List Trace := []
deriving DecidableEq, Repr

inductive Fault where
  /-- Undefined behaviour. -/
  | memory
  /-- The last reference is released although the connection is in use (923-937). -/
  | released
deriving DecidableEq, Repr

def Conn.tell (c : Conn) (t : Trace) : Conn := { c with log := c.log ++ [t] }

/-- What a counter changes by when a flag changes (3507-3527). -/
def delta (before now : Bool) : Int :=
  match before, now with
  | false, true => 1
  | true, false => -1
  | _, _ => 0

/-- `aws_mqtt_connection_statistics_change_operation_statistic_state` (3480-3537). -/
def Conn.change (c : Conn) (uid : Nat) (incomplete unacked : Bool) : Conn :=
  match c.reqs.get uid with
  | none => c
  | some r =>
    if r.size = 0 then c
    else
      { c with
        incompleteCount := c.incompleteCount + delta r.incomplete incomplete
        incompleteSize := c.incompleteSize + delta r.incomplete incomplete * r.size
        unackedCount := c.unackedCount + delta r.unacked unacked
        unackedSize := c.unackedSize + delta r.unacked unacked * r.size
        reqs := c.reqs.set uid { r with incomplete := incomplete, unacked := unacked } }

/-- Remove a request from `outstanding_requests_table` and release it. -/
def Conn.remove (c : Conn) (uid : Nat) : Conn :=
  match c.reqs.get uid with
  | none => c
  | some r => { c with table := c.table.del r.id, reqs := c.reqs.del uid, timers := c.timers.filter (· ≠ uid) }

/-- Callback, statistics and removal of a request that is in no list (ch 786-801, 833-848). -/
def Conn.complete (c : Conn) (uid : Nat) (outcome : Outcome) : Conn :=
  ((c.tell (.completed uid outcome)).change uid false false).remove uid

/-- The increment of `synced_data.packet_id` (ch 925-930). -/
def nextId (id : Nat) : Nat := if id = 65535 then 1 else id + 1

/-- The search for a free packet id (ch 922-949): the id at which it ends and whether it is free. -/
def searchId (used : Nat → Bool) (start : Nat) : (fuel id : Nat) → Nat × Bool
  | 0, id => (id, false)
  | fuel + 1, id =>
    let id := nextId id
    if !used id then (id, true)
    else if id = start then (id, false)
    else searchId used start fuel id

/-- The part of `mqtt_create_request` that makes the request, puts it into the table and counts it (ch 951-978,
990-994). -/
def Conn.add (c : Conn) (kind : Kind) (id size : Nat) : Conn :=
  let uid := c.nextUid
  let c : Conn := { c with
    lastId := id
    nextUid := uid + 1
    reqs := c.reqs.set uid { kind := kind, id := id, size := size, topics := kind.topics }
    table := c.table.set id uid
    log := c.log ++ [.accepted uid id kind size] }
  c.change uid true false

/-- `mqtt_create_request` (ch 874-1011). Without a slot the channel of a NULL slot would be taken (ch 982-985). -/
def Conn.create (c : Conn) (kind : Kind) (size : Nat) : Except Fault Conn :=
  if c.state = .disconnecting then .ok (c.tell (.refused .disconnecting))
  else if !kind.retryable ∧ c.state ≠ .connected then .ok (c.tell (.refused .notConnected))
  else
    let r := searchId (fun id => (c.table.get id).isSome) c.lastId 65536 c.lastId
    if !r.2 then .ok { c with lastId := r.1, log := c.log ++ [.refused .full] }
    else if c.state ≠ .connected then .ok { c.add kind r.1 size with pending := c.pending ++ [c.nextUid] }
    else
      match c.slot, c.chan with
      | true, some chan => .ok { c.add kind r.1 size with tasks := c.tasks ++ [(c.nextUid, chan)] }
      | _, _ => .error .memory

/-- `mqtt_request_complete` (ch 1013-1068). -/
def Conn.finish (c : Conn) (id : Nat) (outcome : Outcome) : Except Fault Conn :=
  match c.table.get id with
  | none => .ok c
  | some uid =>
    if uid ∈ c.ongoing ∨ uid ∈ c.pending then
      let c := c.complete uid outcome
      .ok { c with ongoing := c.ongoing.filter (· ≠ uid), pending := c.pending.filter (· ≠ uid) }
    else .error .memory

/-- What the `send_request` function of a request did: `s_subscribe_send` (2059-2195), `s_resubscribe_send`
(2611-2704), `s_unsubscribe_send` (2861-2981), `s_publish_send` (3167-3258), `s_pingreq_send` (3416-3462). -/
inductive Sending where
  /-- Sent and waiting for an acknowledgement: whether a timeout task has been scheduled, and how many topics it had. -/
  | ongoing (timer : Bool) (topics : Nat)
  | complete
  | error
deriving DecidableEq, Repr

/-- What a `send_request` function may return. -/
def Kind.mayReturn : Kind → Sending → Bool
  | .publish 0, .ongoing .. => false
  | .publish 0, _ => true
  | .ping, .ongoing .. => false
  | .ping, _ => true
  | .resubscribe, .ongoing _ n => n ≠ 0
  | .resubscribe, _ => true
  | .subscribe m, .ongoing _ n => n = m
  | _, .complete => false
  | _, _ => true

/-- `s_request_outgoing_task` when it is run (ch 806-871). -/
def Conn.send (c : Conn) (uid chan : Nat) (result : Sending) : Conn :=
  match c.reqs.get uid with
  | none => c
  | some r =>
    match result with
    | .error => c.complete uid .failed
    | .complete =>
      let c := if r.kind = .resubscribe then c else c.tell (.sent uid chan r.initiated)
      c.complete uid .success
    | .ongoing timer topics =>
      let c := c.tell (.sent uid chan r.initiated)
      let topics := if r.kind.isSubscribe then topics else r.topics
      let c := { c with reqs := c.reqs.set uid { r with initiated := true, topics := topics } }
      let c := c.change uid true true
      { c with
        ongoing := c.ongoing ++ [uid]
        timers := if timer then c.timers ++ [uid] else c.timers }

/-- `s_request_outgoing_task` when it is cancelled (ch 755-804). -/
def Conn.cancelled (c : Conn) (uid : Nat) : Conn :=
  match c.reqs.get uid with
  | none => c
  | some r =>
    if r.kind.retryable then
      let c := c.change uid true false
      { c with pending := c.pending ++ [uid] }
    else c.complete uid .notConnected

/-- `aws_channel_shutdown` because of a packet (ch 603-634). -/
def Conn.reject (c : Conn) (chan : Nat) : Conn := { c with closing := true, log := c.log ++ [.rejected chan] }

/-- `s_packet_handler_connack` (ch 146-274). -/
def Conn.connack (c : Conn) (chan : Nat) (accepted : Bool) : Conn :=
  if c.state = .disconnecting ∨ c.state = .disconnected then c.tell (.processed chan (.connack accepted))
  else if accepted then
    let wasReconnecting := c.state = .reconnecting
    let c : Conn := { c with
      state := .connected
      tasks := c.tasks ++ c.pending.map (·, chan)
      pending := []
      count := c.count + 1
      log := c.log ++ [.processed chan (.connack accepted)] }
    if wasReconnecting ∧ c.count > 1 then c.tell .resumed
    else
      { c with
        reconnect := if c.reconnect = .absent then .idle else c.reconnect
        log := c.log ++ [.connectionComplete true] }
  else
    { c with
      count := c.count + 1
      closing := true
      log := c.log ++ [.processed chan (.connack accepted), .rejected chan] }

/-- `s_packet_handler_suback` (ch 375-438). -/
def Conn.suback (c : Conn) (chan id codes : Nat) : Except Fault Conn :=
  match c.table.get id with
  | none => .ok c
  | some uid =>
    match c.reqs.get uid with
    | none => .error .memory
    | some r =>
      if !r.kind.isSubscribe then .error .memory
      else if r.topics ≠ codes then .ok (c.reject chan)
      else c.finish id .success

/-- The handlers of packets (ch 61-600) with `s_validate_received_packet_type` (ch 115-144). -/
def Conn.receive (c : Conn) (chan : Nat) (p : Packet) : Except Fault Conn :=
  match p with
  | .pingresp => .ok (c.tell (.processed chan p))
  | .connack accepted => .ok (c.connack chan accepted)
  | _ =>
    if c.state = .connecting then .ok (c.reject chan)
    else
      match p with
      | .publish qos id =>
        let c := c.tell (.processed chan p)
        .ok (if qos ≠ 0 ∧ id ≠ 0 then c.tell (.replied id) else c)
      | .puback id => (c.tell (.processed chan p)).finish id .success
      | .unsuback id => (c.tell (.processed chan p)).finish id .success
      | .pubcomp id => (c.tell (.processed chan p)).finish id .success
      | .suback id codes => (c.tell (.processed chan p)).suback chan id codes
      | .pubrec id => .ok ((c.tell (.processed chan p)).tell (.replied id))
      | .pubrel id => .ok ((c.tell (.processed chan p)).tell (.replied id))
      | _ => .ok (c.reject chan)

/-- `s_mqtt_client_connection_destroy_final` (818-906): callbacks of what is pending. -/
def Conn.destroyFinal (c : Conn) : Conn :=
  { c with
    destroyed := true
    table := []
    pending := []
    reqs := c.pending.foldl (fun m uid => m.del uid) c.reqs
    log := c.log ++ c.pending.map (.completed · .destroyed) ++ [.destroyed] }

/-- `aws_mqtt_client_connection_release`, after one reference has been given up, with
`s_mqtt_client_connection_start_destroy` (914-948). -/
def Conn.release (c : Conn) : Except Fault Conn :=
  if c.held = 0 ∧ c.pinned = false then
    if c.state = .disconnected then .ok c.destroyFinal else .error .released
  else .ok c

/-- `connect` (1701-1911) until it takes the requests of the previous session. -/
def Conn.connect (c : Conn) (clean : Bool) : Conn :=
  if c.state ≠ .disconnected then c.tell .connectRefused
  else
    { c with
      state := .connecting
      clean := clean
      count := 0
      pending := if clean then [] else c.pending
      busy := .cancelling (if clean then c.pending else []) (if clean then c.pending else []) .connect }

/-- The end of `connect` (1881-1910): `s_mqtt_client_connect` (1913-1960) succeeds or fails. -/
def Conn.launch (c : Conn) (ok : Bool) : Conn :=
  if ok then { c with busy := .idle, pinned := true, opening := true, log := c.log ++ [.connecting] }
  else { c with busy := .idle, state := .disconnected, log := c.log ++ [.connectRefused] }

/-- `disconnect` (1983-2018) and `mqtt_disconnect_impl` (ch 1104-1114). -/
def Conn.disconnect (c : Conn) : Conn :=
  if c.state = .connected ∨ c.state = .reconnecting then
    { c with state := .disconnecting, disconnectTask := c.slot || c.disconnectTask }
  else c

/-- `s_mqtt_disconnect_task` (ch 1075-1102). -/
def Conn.runDisconnectTask (c : Conn) : Conn :=
  { c with
    disconnectTask := false
    reconnect := if c.state = .disconnecting then .absent else c.reconnect
    closing := c.slot || c.closing }

/-- What happens to the attempt to set up a channel. -/
inductive Setup where
  | failed
  /-- The channel is set up but `s_mqtt_client_init` cannot send CONNECT (710-719). -/
  | unsent
  /-- The websocket is set up but cannot be converted, or the user's handshake validator refuses it (1517-1550). -/
  | refused
  | opened
deriving DecidableEq, Repr

/-- The critical section of `s_mqtt_client_shutdown` (268-357). -/
def Conn.shutdown (c : Conn) : Conn :=
  { c with
    opening := false
    chan := none
    slot := false
    closing := false
    timers := []
    ongoing := []
    pending := if c.clean then [] else c.pending ++ c.ongoing
    state := if c.state = .connected then .reconnecting else c.state
    busy := .cancelling (if c.clean then c.ongoing ++ c.pending else []) (if c.clean then c.ongoing ++ c.pending else [])
      (.shutdown c.state) }

/-- `s_mqtt_client_init` (503-720), for websockets after `s_on_websocket_setup` (1500-1559). -/
def Conn.setup (c : Conn) (r : Setup) : Conn :=
  match r with
  | .failed => c.shutdown
  | .refused => { c with opening := false, chan := some c.nextChan, nextChan := c.nextChan + 1, closing := true }
  | _ =>
    let c := { c with opening := false, chan := some c.nextChan, nextChan := c.nextChan + 1 }
    if c.state = .disconnecting then { c with closing := true }
    else if r = .opened then { c with slot := true, log := c.log ++ [.opened (c.nextChan - 1)] }
    else { c with slot := true, closing := true, log := c.log ++ [.connectionComplete false] }

/-- `s_aws_mqtt_schedule_reconnect_task` (73-86). -/
def Conn.schedule (c : Conn) : Except Fault Conn :=
  if c.reconnect = .absent then .error .memory else .ok { c with reconnect := .scheduled }

/-- The end of `s_mqtt_client_shutdown` (431-470). -/
def Conn.finishDisconnect (c : Conn) (prev : State) : Except Fault Conn :=
  { c with
    state := .disconnected
    busy := .idle
    pinned := false
    log := c.log ++ (match prev with
      | .connecting => [.connectionComplete false]
      | .connected => [.disconnected]
      | .disconnecting => [.disconnected]
      | _ => []) : Conn }.release

/-- `s_mqtt_client_shutdown` and `connect` continue: a callback (359-372, 1846-1866), then the removal of the requests
(373-384, 1867-1879) and what comes after it (392-470). -/
def Conn.advance (c : Conn) : Except Fault Conn :=
  match c.busy with
  | .cancelling all (uid :: todo) next =>
    .ok { c with busy := .cancelling all todo next, log := c.log ++ [.completed uid .cleanSession] }
  | .cancelling all [] next =>
    let c := all.foldl Conn.remove c
    match next with
    | .connect => .ok { c with busy := .launching }
    | .shutdown .reconnecting => { c with busy := .idle }.schedule
    | .shutdown .connected => .ok { c with busy := .interrupted, log := c.log ++ [.interrupted] }
    | .shutdown .disconnected => .ok { c with busy := .idle }
    | .shutdown prev => c.finishDisconnect prev
  | .interrupted =>
    if c.state = .disconnecting then c.finishDisconnect .connected else { c with busy := .idle }.schedule
  | _ => .ok c

/-- `s_attempt_reconnect` (722-804); `ok` says whether `s_mqtt_client_connect` succeeds. -/
def Conn.attempt (c : Conn) (ok : Bool) : Except Fault Conn :=
  if c.state = .disconnecting then
    let c := { c with reconnect := .absent }
    if c.slot then .ok c
    else { c with state := .disconnected, pinned := false, log := c.log ++ [.disconnected] : Conn }.release
  else if ok then .ok { c with reconnect := .idle, opening := true }
  else .ok { c with reconnect := .scheduled }

inductive Event where
  /-- `publish`, `subscribe`, `unsubscribe`, `resubscribe_existing_topics`. -/
  | create (kind : Kind) (size : Nat)
  | connect (clean : Bool)
  | launch (ok : Bool)
  | advance
  | disconnect
  | acquire
  | release
  | setup (r : Setup)
  | packet (p : Packet)
  /-- The ping task (ch 88-113) sends a PINGREQ. -/
  | ping
  /-- An outgoing task is run or cancelled. -/
  | run (k : Nat) (result : Sending)
  | cancel (k : Nat)
  /-- A timeout task runs (`s_request_timeout`, 106-129). -/
  | timeout (uid : Nat)
  | attempt (ok : Bool)
  | disconnectTask
  /-- The channel begins to shut down: the peer, the network, CONNACK or PINGRESP in time. -/
  | close
  | shutdown
deriving DecidableEq, Repr

/-- When an event can happen. The packet sizes given to `mqtt_create_request` are at least 4 except for pings. Tasks and
callbacks of the event loop wait until `s_mqtt_client_shutdown` is done. -/
def Enabled (c : Conn) : Event → Bool
  | .create kind size => kind ≠ .ping ∧ size ≠ 0
  | .connect _ => true
  | .launch _ => c.busy = .launching
  | .advance => c.busy ≠ .idle ∧ c.busy ≠ .launching
  | .disconnect => true
  | .acquire => true
  | .release => c.held ≠ 0 ∧ (c.held = 1 → c.busy.inConnect = false ∧ ∀ t ∈ c.tasks, some t.2 = c.chan)
  | .setup _ => c.busy = .idle ∧ c.opening
  | .packet _ => c.busy = .idle ∧ c.slot
  | .ping => c.busy = .idle ∧ c.slot
  | .run k result => c.busy = .idle && match c.tasks[k]? with
      | none => false
      | some t => some t.2 = c.chan && match c.reqs.get t.1 with
        | none => true
        | some r => r.kind.mayReturn result
  | .cancel k => match c.tasks[k]? with
      | none => false
      | some t => some t.2 ≠ c.chan ∨ c.closing
  | .timeout uid => c.busy = .idle ∧ uid ∈ c.timers
  | .attempt _ => c.busy = .idle ∧ c.reconnect = .scheduled
  | .disconnectTask => c.disconnectTask
  | .close => c.chan ≠ none
  | .shutdown => c.busy = .idle ∧ c.chan ≠ none ∧ c.closing ∧ c.disconnectTask = false ∧ (c.held = 0 → c.tasks = [])

def step (c : Conn) : Event → Except Fault Conn
  | .create kind size => c.create kind size
  | .connect clean => .ok (c.connect clean)
  | .launch ok => .ok (c.launch ok)
  | .advance => c.advance
  | .disconnect => .ok c.disconnect
  | .acquire => .ok { c with held := c.held + 1 }
  | .release => { c with held := c.held - 1 : Conn }.release
  | .setup r => .ok (c.setup r)
  | .packet p =>
    match c.chan with
    | none => .error .memory
    | some chan => c.receive chan p
  | .ping => c.create .ping 0
  | .run k result =>
    match c.tasks[k]? with
    | none => .ok c
    | some (uid, chan) => .ok ({ c with tasks := c.tasks.eraseIdx k }.send uid chan result)
  | .cancel k =>
    match c.tasks[k]? with
    | none => .ok c
    | some (uid, _) => .ok ({ c with tasks := c.tasks.eraseIdx k }.cancelled uid)
  | .timeout uid =>
    match c.reqs.get uid with
    | none => .error .memory
    | some r => c.finish r.id .timeout
  | .attempt ok => c.attempt ok
  | .disconnectTask => .ok c.runDisconnectTask
  | .close => .ok { c with closing := true }
  | .shutdown => .ok c.shutdown

/-- Histories of a connection without a fault; each event is allowed by `allowed`. -/
inductive Reachable (allowed : Conn → Event → Prop) : Conn → Prop where
  | init : Reachable allowed {}
  | step {c c' : Conn} {e : Event} : Reachable allowed c → c.destroyed = false → Enabled c e = true → allowed c e →
    step c e = .ok c' → Reachable allowed c'

end Mqtt.Client311
