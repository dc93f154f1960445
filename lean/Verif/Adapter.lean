import Verif.Client5
import Verif.SubscriptionSet

/-!
Model of the 3.1.1 connection that runs over an MQTT 5 client,
/repo/source/v5/mqtt5_to_mqtt3_adapter.c (line numbers refer to it unless said otherwise), together with
the MQTT 5 client it drives (`Verif/Client5.lean`), its listener (mqtt5_listener.c) and its subscription
set (`Verif/SubscriptionSet.lean`).

An event is one API call made by the user, one task of the adapter run by the event loop, or one event of
the MQTT 5 client; what the client emits during an event is handed to the adapter's callbacks in the same
event. Tasks of the adapter run in the order they were scheduled; they mix with the client's in any order.

`Adapter.log` is not in the code: it records the calls made by the user and the callbacks they get.

Simplifications: allocation does not fail and the event loop is not destroyed, so tasks are never
cancelled; a callback that is NULL is one that does nothing; an API call from inside a callback is like
the same call just before the event; when one event of the client emits both lifecycle events and
completions, all lifecycle events come first. Not modelled: handlers are set once (740-1107), the
setters of will, login, proxy, websockets, host resolution, metrics and reconnect timeouts, the options
of the socket and TLS, statistics.
-/
namespace Mqtt.Adapter

open Mqtt.V5 Mqtt.SubscriptionSet
open Mqtt.Client5 (Config Client LEvent Effect Fault Desired)

/-- The error codes seen by the user of the adapter. -/
inductive Code where
  | ok | protocolError | timeout | socketClosed | hangup | cancelledForCleanSession
  /-- The code of the MQTT 5 client as it is. -/
  | same (e : Client5.Error)
  | alreadyConnected | connectionShutdown | connectionDestroyed | ackReason | noTopics | invalidOptions
deriving DecidableEq, Repr

/-- A code of the MQTT 5 client that is passed on as it is. -/
def Code.of (e : Client5.Error) : Code := if e = .success then .ok else .same e

/-- `s_translate_mqtt5_error_code_to_mqtt311` (20-55). -/
def translate (e : Client5.Error) : Code :=
  match e with
  | .protocolError => .protocolError
  | .connackRefused => .protocolError
  | .connackTimeout => .timeout
  | .pingTimeout => .timeout
  | .userStop => .socketClosed
  | .terminated => .socketClosed
  | .disconnectReceived => .hangup
  | .offlinePolicy => .cancelledForCleanSession
  | .processingFailure => .protocolError
  | e => Code.of e

/-- `enum aws_mqtt_adapter_state` (mqtt5_to_mqtt3_adapter_impl.h). -/
inductive AState where
  | stayDisconnected | firstConnect | stayConnected
deriving DecidableEq, Repr

/-- `struct aws_socket_options`, as far as it is validated. -/
structure SocketOptions where
  datagram : Bool := false
  connectTimeoutMs : Nat := 3000
deriving DecidableEq, Repr

/-- `struct aws_mqtt_connection_options`. -/
structure ConnectOptions where
  hostName : Bytes := [104]
  socketOptions : Option SocketOptions := some {}
  clientId : Bytes := []
  keepAlive : Nat := 0
  pingTimeoutMs : Nat := 0
  operationTimeoutMs : Nat := 0
  cleanSession : Bool := true
deriving DecidableEq, Repr

/-- `s_validate_adapter_connection_options` (285-313). -/
def ConnectOptions.valid (o : ConnectOptions) : Bool :=
  if o.hostName.length = 0 then false                                              -- 292-298
  else o.socketOptions.all fun s => !(s.datagram || s.connectTimeoutMs == 0)       -- 301-310

/-- `struct aws_mqtt_topic_subscription`. -/
structure Request where
  filter : Bytes
  qos : Nat := 0
  onPublish : Option Nat := none
  cleanup : Bool := false
  userdata : Option Nat := none
deriving DecidableEq, Repr

def Request.entry (r : Request) : Entry :=
  { options := r.qos, onPublish := r.onPublish, cleanup := r.cleanup, userdata := r.userdata }

/-- `s_aws_mqtt5_to_mqtt3_adapter_build_resubscribe` (2297-2316): a subscription of the set as a request. -/
def Request.ofEntry (e : Bytes × Entry) : Request :=
  { filter := e.1, qos := e.2.options, onPublish := e.2.onPublish, cleanup := e.2.cleanup, userdata := e.2.userdata }

/-- The SUBSCRIBE made for some requests (2211-2224). -/
def subscribeView (rs : List Request) : SubscribeView :=
  { subscriptions := rs.map fun r => { topicFilter := r.filter, qos := r.qos } }

/-- Operations of the adapter. The MQTT 5 operation of a resubscribe is made by its submission task. -/
inductive Kind where
  | publish (v : PublishView)
  /-- With a callback for one topic or for many (2399-2405, 2471-2477). -/
  | subscribe (rs : List Request) (v : SubscribeView) (multi : Bool)
  | resubscribe
  | unsubscribe (filter : Bytes) (v : UnsubscribeView)
deriving DecidableEq, Repr

/-- `struct aws_mqtt5_to_mqtt3_adapter_operation_base` and what it is embedded in. `call` is a number
standing for the call that made it, `uid` its MQTT 5 operation once that is submitted. -/
structure AOp where
  call : Nat
  kind : Kind
  uid : Option Nat := none
deriving DecidableEq, Repr

/-- What an operation's callback is told: the error code and, for subscribes, topics and granted QoS
(`none` is a NULL list). -/
structure Result where
  code : Code
  granted : Option (List (Bytes × Nat)) := none
deriving DecidableEq, Repr

/-- Tasks of the adapter, by the functions that make them. -/
inductive Task where
  /-- `s_mqtt5_listener_initialize_task_fn` (mqtt5_listener.c:40-57). -/
  | attach
  /-- `s_mqtt5_listener_terminate_task_fn` (mqtt5_listener.c:59-75). -/
  | detach
  | connect (call : Nat) (o : ConnectOptions)
  | disconnect (call : Nat)
  | submit (id : Nat)
  | destroy
deriving DecidableEq, Repr

/-- Calls of the user and callbacks of the adapter. -/
inductive Note where
  | connectCalled (call : Nat)
  | disconnectCalled (call : Nat)
  /-- An operation is accepted; `id` is what the call returns. -/
  | accepted (call id : Nat) (k : Kind)
  /-- `connect()` was accepted by its task: the adapter will try to connect. -/
  | connecting (call : Nat)
  /-- `on_connection_complete` of this `connect()`. -/
  | connectDone (call : Nat) (code : Code)
  /-- `on_disconnect` of this `disconnect()`. -/
  | disconnectDone (call : Nat)
  | connectionSuccess
  | connectionFailure (code : Code)
  | interrupted (code : Code)
  | resumed
  | closed
  /-- The callback of an operation. -/
  | finished (call id : Nat) (r : Result)
  /-- Publish handlers called for a publish that arrived; then `on_any_publish`. -/
  | published (v : PublishView) (handlers : List (Nat × Option Nat))
  /-- The termination callback. -/
  | terminated
  /-- The MQTT 5 client begins to connect. -/
  | attempting
deriving DecidableEq, Repr

/-- `struct aws_mqtt_client_connection_5_impl`. `gone`: its memory has been released. `attached`: its
callbacks are in the client's callback set. -/
structure Adapter where
  state : AState := .stayDisconnected
  onComplete : Option Nat := none
  onDisconnect : Option Nat := none
  subs : SubSet := SubSet.new
  nextId : Nat := 1
  table : AMap Nat AOp := []
  external : Nat := 1
  internal : Nat := 1
  listener : Nat := 2
  attached : Bool := false
  gone : Bool := false
  tasks : List Task := [.attach]
  calls : Nat := 0
  log : List Note := []
deriving DecidableEq, Repr

structure Sys where
  cfg : Config
  client : Client
  ad : Adapter := {}

def Adapter.note (a : Adapter) (n : Note) : Adapter := { a with log := a.log ++ [n] }

def Adapter.schedule (a : Adapter) (t : Task) : Adapter := { a with tasks := a.tasks ++ [t] }

/-! ## Reference counts -/

/-- Release of an internal reference (1703-1707, 121-137). -/
def Adapter.releaseInternal (a : Adapter) : Adapter :=
  let a := { a with internal := a.internal - 1 }
  if a.internal = 0 then a.schedule .destroy else a

/-- `aws_mqtt5_listener_release` (mqtt5_listener.c:116-122, 77-81). -/
def Adapter.releaseListener (a : Adapter) : Adapter :=
  let a := { a with listener := a.listener - 1 }
  if a.listener = 0 then a.schedule .detach else a

/-- `s_aws_mqtt_client_connection_5_acquire` (1719-1725). -/
def Adapter.acquire (a : Adapter) : Adapter := { a with external := a.external + 1 }

/-- `s_aws_mqtt_client_connection_5_release` (1748-1752) with 1727-1746. -/
def Adapter.release (a : Adapter) : Adapter :=
  let a := { a with external := a.external - 1 }
  if a.external = 0 then a.releaseListener else a

/-! ## Callbacks of connect() and disconnect() -/

/-- Invoke the stored `on_connection_complete`, if any, and forget it (367-377, 422-432, 524-534). -/
def Adapter.completeConnect (a : Adapter) (c : Code) : Adapter :=
  match a.onComplete with
  | none => a
  | some i => ({ a with onComplete := none } : Adapter).note (.connectDone i c)

/-- Invoke the stored `on_disconnect`, if any, and forget it (471-476, 653-658). -/
def Adapter.completeDisconnect (a : Adapter) : Adapter :=
  match a.onDisconnect with
  | none => a
  | some i => ({ a with onDisconnect := none } : Adapter).note (.disconnectDone i)

/-- `s_aws_mqtt5_to_mqtt3_adapter_lifecycle_handler` (344-497). -/
def Adapter.onEvent (a : Adapter) : LEvent → Adapter
  | .attempting => a.note .attempting
  | .success =>
    match a.state with
    | .stayDisconnected => a
    | .firstConnect =>                                                             -- 362-378
      { (a.note .connectionSuccess).completeConnect .ok with state := .stayConnected }
    | .stayConnected => (a.note .connectionSuccess).note .resumed                  -- 379-388
  | .failure e =>
    if e = .connectionReset then a                                                 -- 412
    else
      match a.state with
      | .stayDisconnected => a
      | .firstConnect =>                                                           -- 421-435
        { (a.note (.connectionFailure (translate e))).completeConnect (translate e) with state := .stayDisconnected }
      | .stayConnected => a.note (.connectionFailure (translate e))
  | .disconnection e =>                                                            -- 453-460
    if a.state = .stayConnected ∧ e ≠ .connectionReset then a.note (.interrupted (translate e)) else a
  | .stopped => { a.completeDisconnect.note .closed with state := .stayDisconnected }   -- 471-491

/-- An event that the adapter does not get. -/
def Adapter.overlook (a : Adapter) : LEvent → Adapter
  | .attempting => a.note .attempting
  | _ => a

/-! ## Operations -/

/-- `s_next_adapter_id` (3071-3077). -/
def nextAdapterId (id : Nat) : Nat := if (id + 1) % 65536 = 0 then 1 else id + 1

/-- The loop of `aws_mqtt5_to_mqtt3_adapter_operation_table_add_operation` (3087-3104). -/
def findFree (table : AMap Nat AOp) : Nat → Nat → Option Nat
  | 0, _ => none
  | fuel + 1, id => if (table.get id).isSome then findFree table fuel (nextAdapterId id) else some id

/-- `UINT16_MAX`. -/
scoped notation "u16max" => 65535

/-- `aws_mqtt5_to_mqtt3_adapter_operation_table_add_operation` (3079-3111), then the cross-thread
references and the submission task (e.g. 1966-1984). -/
def Adapter.add (a : Adapter) (k : Kind) : Adapter :=
  match findFree a.table u16max a.nextId with
  | none => { a with calls := a.calls + 1 }
  | some id =>
    (({ a with
      nextId := nextAdapterId id
      table := a.table.set id { call := a.calls, kind := k }
      internal := a.internal + 1
      calls := a.calls + 1 } : Adapter).note (.accepted a.calls id k)).schedule (.submit id)

/-- The view published (1869-1874). -/
def publishView (topic payload : Bytes) (qos : Nat) (retain : Bool) : PublishView :=
  { topic := topic, qos := qos, payload := payload, retain := retain }

/-- `s_aws_mqtt_client_connection_5_publish` (1916-1993) with
`aws_mqtt5_to_mqtt3_adapter_operation_new_publish` (1855-1897); releasing an operation without its
MQTT 5 operation dereferences NULL (1798). -/
def Adapter.publish (a : Adapter) (topic payload : Bytes) (qos : Nat) (retain : Bool) : Except Fault Adapter :=
  if qos > 2 then .ok a                                                            -- 1929-1934
  else if !isValidTopic topic then .ok a                                           -- 1936-1941
  else
    match newPublish (publishView topic payload qos retain) with
    | none => .error .ub                                                           -- 1881-1894
    | some v => .ok (a.add (.publish v))

/-- `s_aws_mqtt_client_connection_5_subscribe` and `_subscribe_multiple` (2375-2528) with
`aws_mqtt5_to_mqtt3_adapter_operation_new_subscribe` (2252-2295) and 2154-2240. -/
def Adapter.subscribe (a : Adapter) (rs : List Request) (multi : Bool) : Adapter :=
  if rs.length = 0 then a                                                          -- 2462-2467
  else if rs.any fun r => decide (r.qos > 2) || !isValidTopicFilter r.filter then a   -- 2158-2176
  else
    match newSubscribe (subscribeView rs) with
    | none => a                                                                    -- 2234-2237
    | some v => a.add (.subscribe rs v multi)

/-- `s_aws_mqtt_5_resubscribe_existing_topics` (2872-2942). -/
def Adapter.resubscribe (a : Adapter) : Adapter := a.add .resubscribe

/-- `s_aws_mqtt_client_connection_5_unsubscribe` (2659-2734) with 2594-2637; like `publish` (2546). -/
def Adapter.unsubscribe (a : Adapter) (f : Bytes) : Except Fault Adapter :=
  if !isValidTopicFilter f then .ok a                                              -- 2669-2676
  else
    match newUnsubscribe { topicFilters := [f] } with
    | none => .error .ub
    | some v => .ok (a.add (.unsubscribe f v))

/-- `s_convert_mqtt5_suback_reason_code_to_mqtt3_granted_qos` (2032-2043); 128 is
`AWS_MQTT_QOS_FAILURE`. -/
def grantedQos (code : Nat) : Nat := if code ≤ 2 then code else 128

/-- The topic and QoS of the callback for one topic (2059-2083). -/
def singleGrant (rs : List Request) (suback : Option (List Nat)) : List (Bytes × Nat) :=
  [((rs.head?.map (·.filter)).getD [],
    match suback with
    | none => 128
    | some [] => 0
    | some (c :: _) => grantedQos c)]

/-- The list of the callback for many topics (2096-2127); topics beyond those requested are empty. -/
def multiGrant (rs : List Request) (codes : List Nat) : List (Bytes × Nat) :=
  codes.zipIdx.map fun c => ((rs[c.2]?.map (·.filter)).getD [], grantedQos c.1)

/-- `s_aws_mqtt5_to_mqtt3_adapter_subscribe_completion_helper` (2045-2139). -/
def subscribeResult (rs : List Request) (multi : Bool) (suback : Option (List Nat)) (c : Code) : Result :=
  if multi then { code := c, granted := suback.map (multiGrant rs) }
  else { code := c, granted := some (singleGrant rs suback) }

/-- The reason codes of a SUBACK. -/
def subackCodes : Option Received → Option (List Nat)
  | some (.suback v) => some v.reasonCodes
  | _ => none

/-- What the completion of its MQTT 5 operation tells an operation's callback (1810-1837, 2141-2152,
2558-2576). The requests of a resubscribe are those its task made. -/
def result (k : Kind) (e : Client5.Error) (ack : Option Received) : Result :=
  match k with
  | .publish _ =>
    match ack with
    | some (.puback v) =>
      if e = .success ∧ v.reasonCode ≥ 128 then { code := .ackReason } else { code := Code.of e }   -- 1818-1823
    | _ => { code := Code.of e }
  | .subscribe rs _ multi => subscribeResult rs multi (subackCodes ack) (Code.of e)
  | .resubscribe => { code := Code.of e }
  | .unsubscribe _ _ => { code := Code.of e }

/-- What the clean-up of the operation table tells it (1839-1849, 2242-2246, 2578-2588). -/
def failResult (k : Kind) : Result :=
  match k with
  | .subscribe rs _ multi => subscribeResult rs multi none .connectionDestroyed
  | _ => { code := .connectionDestroyed }

/-- The callback of an operation and its removal from the table (1825-1836, 3113-3127). -/
def Adapter.finish (a : Adapter) (id : Nat) (op : AOp) (r : Result) : Adapter :=
  ({ a with table := a.table.del id } : Adapter).note (.finished op.call id r)

/-- The operation whose MQTT 5 operation this is. -/
def findUid (uid : Nat) : List (Nat × AOp) → Option (Nat × AOp)
  | [] => none
  | p :: l => if p.2.uid = some uid then some p else findUid uid l

/-- An MQTT 5 operation completes: its callback leads to the operation of the adapter, if that still
exists (1797-1799). -/
def Adapter.onCompleted (a : Adapter) (uid : Nat) (e : Client5.Error) (ack : Option Received) : Adapter :=
  match findUid uid a.table with
  | none => a
  | some (id, op) => a.finish id op (result op.kind e ack)

/-- `s_aws_mqtt5_listener_publish_received_adapter` (696-726). -/
def Adapter.onPublish (a : Adapter) (v : PublishView) : Adapter :=
  a.note (.published v ((SubscriptionSet.publish a.subs v.topic).map fun c => c.2))

/-- What the client does to its operations reaches the adapter. -/
def Adapter.onEffect (a : Adapter) : Effect → Adapter
  | .completed uid _ e ack => a.onCompleted uid e ack
  | .delivered v _ => if a.attached then a.onPublish v else a
  | _ => a

/-! ## The client under the adapter -/

/-- The client has moved: its callbacks are made. -/
def Sys.react (s : Sys) (c : Client) : Sys :=
  let a := (c.ctl.events.drop s.client.ctl.events.length).foldl
    (if s.ad.attached then Adapter.onEvent else Adapter.overlook) s.ad
  { s with client := c, ad := (c.ops.log.drop s.client.ops.log.length).foldl Adapter.onEffect a }

/-- `config->ack_timeout_seconds` (611-616): the sum is taken in 32 bits. -/
def ackTimeout (ms : Nat) : Nat := (ms + 1000 - 1) % 4294967296 / 1000

/-- `s_aws_mqtt5_to_mqtt3_adapter_update_config_on_connect` (582-628), the configuration. -/
def updateConfig (cfg : Config) (o : ConnectOptions) : Config :=
  { cfg with
    session := if o.cleanSession then .clean else .rejoinAlways
    ackTimeoutSeconds := ackTimeout o.operationTimeoutMs
    pingTimeoutMs := o.pingTimeoutMs
    connect := { cfg.connect with
      keepAlive := o.keepAlive
      sessionExpiry := if o.cleanSession then none else some 604800 } }

/-- The client id goes to the negotiated settings (602-606). -/
def updateSettings (c : Client) (o : ConnectOptions) : Client :=
  { c with ctl := { c.ctl with settings := { c.ctl.settings with clientId := o.clientId } } }

/-- `s_aws_mqtt5_to_mqtt3_adapter_connect_handler` (630-676). -/
def Sys.connectTask (s : Sys) (i : Nat) (o : ConnectOptions) : Sys :=
  if s.ad.state ≠ .stayDisconnected then
    { s with ad := s.ad.note (.connectDone i .alreadyConnected) }                  -- 640-651
  else
    let a := { s.ad.completeDisconnect with state := .firstConnect }               -- 653-660
    let c := updateSettings s.client o
    let s := { s with cfg := updateConfig s.cfg o, client := c, ad := a.note (.connecting i) }   -- 668
    let s := s.react c.resetConnection                                             -- 670
    let s := s.react (s.client.setDesired .connected none)                         -- 672
    { s with ad := { s.ad with onComplete := some i } }                            -- 674-675

/-- `s_aws_mqtt5_to_mqtt3_adapter_disconnect_handler` (499-562). -/
def Sys.disconnectTask (s : Sys) (i : Nat) : Sys :=
  match s.ad.state with
  | .stayDisconnected => { s with ad := s.ad.note (.disconnectDone i) }            -- 512-518
  | st =>
    let a := if st = .firstConnect then s.ad.completeConnect .connectionShutdown else s.ad   -- 523-535
    let s := { s with ad := { a with state := .stayDisconnected } }
    if s.client.ctl.desired ≠ .stopped then
      let s := s.react (s.client.setDesired .stopped none)                         -- 546
      { s with ad := { s.ad with onDisconnect := some i } }                        -- 548-549
    else { s with ad := (s.ad.note (.disconnectDone i)).note .closed }             -- 553-561

/-- The MQTT 5 operation of an operation is submitted (e.g. 1899-1914). -/
def Sys.submitOp (s : Sys) (id : Nat) (op : AOp) (p : Outgoing) : Sys :=
  let a := { s.ad with table := s.ad.table.set id { op with uid := some s.client.ops.nextUid } }
  ({ s with ad := a } : Sys).react (s.client.submit s.cfg p 0 false)

/-- The loop adding subscriptions to the set (2353-2359); `none` is the failed assertion. -/
def addAll (set : SubSet) : List Request → Option SubSet
  | [] => some set
  | r :: rs =>
    match SubscriptionSet.add set r.filter r.entry with
    | none => none
    | some set => addAll set rs

/-- `s_adapter_subscribe_submission_fn` (2318-2373) once there is an MQTT 5 operation. -/
def Sys.submitSubscribe (s : Sys) (id : Nat) (op : AOp) (rs : List Request) (v : SubscribeView) : Except Fault Sys :=
  match addAll s.ad.subs rs with
  | none => .error .abort
  | some set => .ok (({ s with ad := { s.ad with subs := set } } : Sys).submitOp id op (.subscribe v))

/-- The submission tasks (1899-1914, 2318-2373, 2639-2657) without the release of references. -/
def Sys.submitTask (s : Sys) (id : Nat) : Except Fault Sys :=
  match s.ad.table.get id with
  | none => .error .ub
  | some op =>
    match op.kind with
    | .publish v => .ok (s.submitOp id op (.publish v))
    | .subscribe rs v _ => s.submitSubscribe id op rs v
    | .resubscribe =>
      let rs := (getSubscriptions s.ad.subs).map Request.ofEntry
      if rs.length = 0 then .ok { s with ad := s.ad.finish id op { code := .noTopics } }   -- 2329-2350
      else
        match newSubscribe (subscribeView rs) with
        | none => .ok { s with ad := s.ad.finish id op { code := .invalidOptions } }
        | some v => s.submitSubscribe id { op with kind := .subscribe rs v true } rs v
    | .unsubscribe f v =>
      match SubscriptionSet.remove s.ad.subs f with
      | none => .error .ub
      | some set => .ok (({ s with ad := { s.ad with subs := set } } : Sys).submitOp id op (.unsubscribe v))

/-- The clean-up of the operation table (3042-3069): all operations are told, then released. -/
def Adapter.failAll (a : Adapter) : Adapter :=
  { a with table := [], log := a.log ++ a.table.map fun p => .finished p.2.call p.1 (failResult p.2.kind) }

/-- `s_mqtt_adapter_final_destroy_task_fn` (63-104). -/
def Adapter.destroy (a : Adapter) : Adapter :=
  ({ ({ a with subs := SubscriptionSet.destroy a.subs } : Adapter).failAll with gone := true } : Adapter).note .terminated

/-- A task of the adapter runs; using the adapter's memory after its release is undefined behaviour. -/
def Sys.runTask (s : Sys) (t : Task) : Except Fault Sys :=
  if s.ad.gone then .error .ub
  else
    match t with
    | .attach => .ok { s with ad := ({ s.ad with attached := true } : Adapter).releaseListener }
    | .detach => .ok { s with ad := ({ s.ad with attached := false } : Adapter).releaseInternal }   -- 1709-1717
    | .connect i o =>
      let s := s.connectTask i o
      .ok { s with ad := s.ad.releaseInternal }
    | .disconnect i =>
      let s := s.disconnectTask i
      .ok { s with ad := s.ad.releaseInternal }
    | .submit id =>
      match s.submitTask id with
      | .error f => .error f
      | .ok s => .ok { s with ad := s.ad.releaseInternal }
    | .destroy => .ok { s with ad := s.ad.destroy }

/-- `s_aws_mqtt_client_connection_5_connect` (315-342) with 233-283: the socket options are copied without
a check (246). -/
def Adapter.connect (a : Adapter) (o : ConnectOptions) : Except Fault Adapter :=
  if !o.valid then .ok a
  else if o.socketOptions.isNone then .error .ub
  else .ok (({ a with internal := a.internal + 1, calls := a.calls + 1 } : Adapter).note
    (.connectCalled a.calls) |>.schedule (.connect a.calls o))

/-- `s_aws_mqtt_client_connection_5_disconnect` (171-194) with 150-169. -/
def Adapter.disconnect (a : Adapter) : Adapter :=
  ({ a with internal := a.internal + 1, calls := a.calls + 1 } : Adapter).note
    (.disconnectCalled a.calls) |>.schedule (.disconnect a.calls)

inductive Event where
  | connect (o : ConnectOptions)
  | disconnect
  | publish (topic payload : Bytes) (qos : Nat) (retain : Bool)
  | subscribe (rs : List Request) (multi : Bool)
  | resubscribe
  | unsubscribe (filter : Bytes)
  | acquire
  | release
  /-- The next task of the adapter runs. -/
  | run
  | client (e : Client5.Event)

/-- An API call that changes the adapter only. -/
def Sys.with (s : Sys) : Except Fault Adapter → Except Fault Sys
  | .error f => .error f
  | .ok a => .ok { s with ad := a }

def step (s : Sys) : Event → Except Fault Sys
  | .connect o => s.with (s.ad.connect o)
  | .disconnect => s.with (.ok s.ad.disconnect)
  | .publish t p q r => s.with (s.ad.publish t p q r)
  | .subscribe rs multi => s.with (.ok (s.ad.subscribe rs multi))
  | .resubscribe => s.with (.ok s.ad.resubscribe)
  | .unsubscribe f => s.with (s.ad.unsubscribe f)
  | .acquire => s.with (.ok s.ad.acquire)
  | .release => s.with (.ok s.ad.release)
  | .run =>
    match s.ad.tasks with
    | [] => .ok s
    | t :: ts => ({ s with ad := { s.ad with tasks := ts } } : Sys).runTask t
  | .client e =>
    match Client5.step s.cfg s.client e with
    | .error f => .error f
    | .ok c => if s.ad.attached ∧ s.ad.gone then .error .ub else .ok (s.react c)

/-- When an event can happen. The user calls the adapter only while they hold a reference, and a call with
a single topic has one. The client is used directly as `Client5.Enabled` says, except that it is not
terminated as long as the adapter holds a reference to it, and that resetting its connection is not
available to users. -/
def Enabled (s : Sys) : Event → Prop
  | .connect _ => s.ad.external > 0
  | .disconnect => s.ad.external > 0
  | .publish .. => s.ad.external > 0
  | .subscribe rs multi => s.ad.external > 0 ∧ (multi = false → rs.length = 1)
  | .resubscribe => s.ad.external > 0
  | .unsubscribe _ => s.ad.external > 0
  | .acquire => s.ad.external > 0
  | .release => s.ad.external > 0
  | .run => s.ad.tasks ≠ []
  | .client e => Client5.Enabled s.client e ∧ Direct e
where
  Direct : Client5.Event → Prop
    | .setDesired d _ => d = .terminated → s.ad.gone
    | .resetConnection => False
    | _ => True

/-- States that histories of such events lead to. The adapter is made for a client that may have been in
use before (`aws_mqtt_client_connection_new_from_mqtt5_client`, 2987-3023). -/
inductive ReachableIf (allow : Sys → Event → Prop) : Sys → Prop where
  | new {cfg : Config} {c : Client} : Client5.Reachable cfg c → c.ctl.desired ≠ .terminated →
      ReachableIf allow { cfg := cfg, client := c }
  | step {s s' : Sys} {e : Event} : ReachableIf allow s → Enabled s e → allow s e → step s e = .ok s' →
      ReachableIf allow s'

/-- States that histories lead to. -/
abbrev Reachable : Sys → Prop := ReachableIf fun _ _ => True

end Mqtt.Adapter
