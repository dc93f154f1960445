import Verif.RrManager
import Verif.Text

/-!
The request-response client (source/request-response/request_response_client.c and
source/request-response/request_response_subscription_set.c), on top of the subscription manager of `Verif.RrManager`.

Operations are named by their id; those that have not been freed are in `ops`, and using any other is the fault `freed`.
Tasks of the event loop that are due now are in `tasks`. An event runs one of them, in any order except that the client
is initialized first; the service task is not among them and runs when its time has come. Calls of the user made from a
callback are calls made after the event. The protocol adapter is outside the model: `Env` says which of its calls
succeed, and its completions and notifications are events. A user holds one reference to a stream. Internal references
are not counted: the client is destroyed once nothing that holds one is left. Logging, allocation and failing hash
tables are left out.
-/
namespace Mqtt.RrClient

open Mqtt.Rr (Kind Status StatusType Action Acquired Manager)

/-- `struct aws_mqtt_request_operation_response_path`. -/
structure Path where
  topic : Bytes
  tokenPath : Bytes
deriving DecidableEq, Repr

/-- `struct aws_mqtt_request_operation_options`. -/
structure Request where
  filters : List Bytes
  paths : List Path
  token : Bytes
  topic : Bytes
  payload : Bytes
deriving DecidableEq, Repr

/-- Storage of an operation (23-38, 158-163). -/
inductive Body where
  | request (r : Request)
  | stream (filter : Bytes)
deriving DecidableEq, Repr

/-- `s_rr_operation_type_to_subscription_type` (1300-1307). -/
def Body.kind : Body → Kind
  | .request _ => .request
  | .stream _ => .stream

/-- `s_aws_mqtt_rr_operation_get_subscription_topic_filters` (1327-1343). -/
def Body.filters : Body → List Bytes
  | .request r => r.filters
  | .stream f => [f]

/-- `enum aws_mqtt_request_response_operation_state` (45-66). -/
inductive OpState where
  | none
  | queued
  | pendingSubscription
  | pendingResponse
  | pendingDestroy
  | subscribed
  | terminal
deriving DecidableEq, Repr

/-- `struct aws_mqtt_rr_client_operation` (139-188). -/
structure Op where
  body : Body
  state : OpState := .none
  timeout : Nat
  pendingSubs : Nat
  inTables : Bool := false
  /-- In `client->operations`. -/
  tracked : Bool := false
  activated : Bool := false
  /-- The user has not released it (streams only). -/
  held : Bool := false
  refs : Nat
deriving DecidableEq, Repr

/-- Errors a request completes with. -/
inductive Failure where
  | timeout
  | subscribeFailure
  | noCapacity
  | publishFailure
  | shutDown
deriving DecidableEq, Repr

/-- `enum aws_rr_streaming_subscription_event_type`. -/
inductive StreamStatus where
  | established
  | lost
  | halted (error : Failure)
deriving DecidableEq, Repr

/-- A parsed JSON document (`aws_json_value`). -/
inductive Json where
  | object (members : List (Bytes × Json))
  | string (s : Bytes)
  | other

/-- An incoming publish; `json` is its parsed payload, if it is JSON. -/
structure Message where
  topic : Bytes
  payload : Bytes
  json : Option Json

/-- What is seen at the boundary of the client. -/
inductive Trace where
  | submitted (id : Nat) (r : Request)
  | opened (id : Nat) (filter : Bytes)
  | closed (id : Nat)
  /-- The completion callback of a request with an incoming publish. -/
  | response (id : Nat) (topic payload : Bytes)
  /-- The completion callback of a request with an error. -/
  | failed (id : Nat) (error : Failure)
  /-- A successful call of `aws_mqtt_protocol_adapter_publish`. -/
  | published (id : Nat) (topic payload : Bytes)
  /-- The subscription status callback of a stream. -/
  | status (id : Nat) (s : StreamStatus)
  /-- The incoming publish callback of a stream. -/
  | delivered (id : Nat) (topic payload : Bytes)
  /-- The termination callback of a stream. -/
  | closedDown (id : Nat)
  | initialized
  /-- The termination callback of the client. -/
  | terminated
deriving DecidableEq, Repr

/-- Ways the C code fails. -/
inductive Fault where
  | manager (f : Rr.Fault)
  /-- A failed `AWS_FATAL_ASSERT`. -/
  | abort
  /-- An operation is used after it was freed. -/
  | freed
deriving DecidableEq, Repr

/-- Tasks of the event loop that are due. -/
inductive Task where
  | initialize
  | submit (id : Nat)
  | status (s : Status)
  | destroy (id : Nat)
  | shutdown
deriving DecidableEq, Repr

/-- `enum aws_request_response_client_state` (193-203). -/
inductive Phase where
  | uninitialized
  | active
  | shuttingDown
deriving DecidableEq, Repr

/-- Options; `sameKey` is the comparison of member names in `aws_json_value_get_from_object`. -/
structure Config where
  manager : Rr.Config
  timeoutSeconds : Nat
  sameKey : Bytes → Bytes → Bool := fun a b => a == b

/-- Results of the protocol adapter's synchronous part. -/
structure Env extends Rr.Env where
  /-- Whether the publish of an operation succeeds. -/
  publish : Nat → Bool := fun _ => true
  /-- `aws_mqtt_protocol_adapter_is_connected`. -/
  connected : Bool := true
  /-- Publishes that `aws_mqtt_protocol_adapter_destroy` fails. -/
  aborted : List Nat := []

/-- `struct aws_rr_response_path_entry`. -/
structure PathEntry where
  refs : Nat
  tokenPath : Bytes
deriving DecidableEq, Repr

/-- `struct aws_mqtt_request_response_client` (230-276). -/
structure Client where
  manager : Manager := .new false
  phase : Phase := .uninitialized
  nextId : Nat := 1
  ops : AMap Nat Op := []
  queue : List Nat := []
  /-- `operations_by_timeout`. -/
  timeouts : List Nat := []
  /-- `operations_by_correlation_tokens`. -/
  tokens : AMap Bytes Nat := []
  /-- `request_response_paths`. -/
  paths : AMap Bytes PathEntry := []
  /-- `streaming_operation_subscription_lists`. -/
  streams : AMap Bytes (List Nat) := []
  /-- `streaming_operation_wildcards_subscription_lists`. -/
  wildcards : AMap Bytes (List Nat) := []
  /-- `scheduled_service_timepoint_ns`. -/
  scheduled : Nat := 0
  /-- The user holds the client. -/
  held : Bool := true
  /-- The protocol adapter has not terminated. -/
  adapter : Bool := true
  tasks : List Task := [.initialize]
  /-- Operations whose publish is not completed. -/
  publishes : List Nat := []
  clock : Nat := 1
  terminated : Bool := false
  log : List Trace := []
deriving DecidableEq, Repr

/-- Size of the range of `uint64_t` and `size_t`. -/
@[irreducible] def u64 : Nat := 2 ^ 64

/-- `UINT64_MAX`. -/
def never : Nat := u64 - 1

/-- `--` on a `size_t`. -/
def decrement (n : Nat) : Nat := if n = 0 then u64 - 1 else n - 1

/-- `aws_mqtt_rr_client_operation_release` (2125-2132) and `s_on_mqtt_rr_client_operation_zero_ref_count` (1789-1793). -/
def Client.releaseOp (c : Client) (id : Nat) : Except Fault Client :=
  match c.ops.get id with
  | none => .error .freed
  | some op =>
    let c := { c with ops := c.ops.set id { op with refs := decrement op.refs } }
    .ok (if op.refs = 1 then { c with tasks := c.tasks ++ [.destroy id] } else c)

/-- `s_complete_request_operation_with_failure` (371-398). -/
def Client.failRequest (c : Client) (id : Nat) (error : Failure) : Except Fault Client :=
  match c.ops.get id with
  | none => .error .freed
  | some op =>
    match op.body with
    | .stream _ => .error .abort                                                    -- 372
    | .request _ =>
      if op.state = .pendingDestroy then .ok c
      else Client.releaseOp { c with ops := c.ops.set id { op with state := .pendingDestroy }
                                     log := c.log ++ [.failed id error] } id

/-- `s_halt_streaming_operation_with_failure` (413-432). -/
def Client.halt (c : Client) (id : Nat) (error : Failure) : Except Fault Client :=
  match c.ops.get id with
  | none => .error .freed
  | some op =>
    match op.body with
    | .request _ => .error .abort                                                   -- 414
    | .stream _ =>
      if op.state = .pendingDestroy ∨ op.state = .terminal then .ok c
      else .ok { c with ops := c.ops.set id { op with state := .terminal }
                        log := c.log ++ [.status id (.halted error)] }

/-- `s_request_response_fail_operation` (434-440). -/
def Client.failOp (c : Client) (id : Nat) (error : Failure) : Except Fault Client :=
  match c.ops.get id with
  | none => .error .freed
  | some op =>
    match op.body with
    | .stream _ => c.halt id error
    | .request _ => c.failRequest id error

/-- `s_mqtt_request_response_client_wake_service` (491-512). -/
def Client.wake (c : Client) (now : Nat) : Client :=
  if c.phase ≠ .active then c
  else if c.scheduled = 0 ∨ now < c.scheduled then { c with scheduled := now }
  else c

/-- Status events of the manager in a part of its log. -/
def statuses (log : List Rr.Trace) : List Status :=
  log.filterMap fun e => match e with
    | .status s => some s
    | _ => none

/-- The client after a call of the manager that did not fail:
`s_aws_rr_client_subscription_status_event_callback` (746-768) for each event. -/
def Client.absorb (c : Client) (m : Manager) : Except Fault Client :=
  let events := statuses (m.log.drop c.manager.log.length)
  if c.phase = .shuttingDown ∧ events ≠ [] then .error .abort                        -- 761
  else .ok { c with manager := m, tasks := c.tasks ++ events.map .status }

/-- `absorb` for the result of a call of the manager. -/
def Client.manage (c : Client) : Except Rr.Fault Manager → Except Fault Client
  | .error f => .error (.manager f)
  | .ok m => c.absorb m

/-- `s_on_request_publish_completion` (532-555). -/
def Client.publishDone (c : Client) (id : Nat) (ok : Bool) : Except Fault Client :=
  let c := { c with publishes := c.publishes.erase id }
  if ok then .ok c
  else match c.ops.get id with
    | none => .ok c
    | some op => if op.tracked then c.failRequest id .publishFailure else .ok c

/-- `s_make_mqtt_request` (557-599). -/
def Client.makeRequest (c : Client) (env : Env) (id : Nat) : Except Fault Client :=
  match c.ops.get id with
  | none => .error .freed
  | some op =>
    match op.body with
    | .stream _ => .error .abort                                                    -- 562
    | .request r =>
      if env.publish id then
        .ok { c with publishes := c.publishes ++ [id], log := c.log ++ [.published id r.topic r.payload] }
      else c.failRequest id .publishFailure

/-- `s_on_request_operation_subscription_status_event` (624-649). -/
def Client.requestStatus (c : Client) (env : Env) (id : Nat) (t : StatusType) : Except Fault Client :=
  match c.ops.get id with
  | none => .error .freed
  | some op =>
    match t with
    | .subscribeFailure | .subscriptionEnded => c.failRequest id .subscribeFailure
    | .subscribeSuccess =>
      if op.state = .pendingSubscription then
        if op.pendingSubs = 1 then
          Client.makeRequest { c with ops := c.ops.set id { op with pendingSubs := 0, state := .pendingResponse } } env id
        else .ok { c with ops := c.ops.set id { op with pendingSubs := decrement op.pendingSubs } }
      else .ok c
    | _ => .error .abort

/-- `s_on_streaming_operation_subscription_status_event` (651-679). -/
def Client.streamStatus (c : Client) (id : Nat) (t : StatusType) : Except Fault Client :=
  match c.ops.get id with
  | none => .error .freed
  | some op =>
    match t with
    | .established =>
      .ok { c with ops := c.ops.set id (if op.state = .pendingSubscription then { op with state := .subscribed } else op)
                   log := c.log ++ [.status id .established] }
    | .lost => .ok { c with log := c.log ++ [.status id .lost] }
    | .halted => c.halt id .subscribeFailure
    | _ => .error .abort

/-- `s_handle_subscription_status_event_task` (681-725). -/
def Client.onStatus (c : Client) (env : Env) (now : Nat) (s : Status) : Except Fault Client :=
  match s.type with
  | .unsubscribeComplete | .empty => .ok (c.wake now)
  | t =>
    match c.ops.get s.op with
    | none => .ok c
    | some op =>
      if op.tracked then
        match t with
        | .subscribeSuccess | .subscribeFailure | .subscriptionEnded => c.requestStatus env s.op t
        | _ => c.streamStatus s.op t
      else .ok c

/-- Apply a fallible step for each element of a list. -/
def each (g : Client → Nat → Except Fault Client) : Client → List Nat → Except Fault Client
  | c, [] => .ok c
  | c, i :: is =>
    match g c i with
    | .error f => .error f
    | .ok c => each g c is

/-- One operation in `s_apply_publish_to_streaming_operation_list` (803-832). -/
def Client.deliverOne (msg : Message) (c : Client) (id : Nat) : Except Fault Client :=
  match c.ops.get id with
  | none => .error .freed
  | some op =>
    match op.body with
    | .request _ => .ok c
    | .stream _ =>
      if op.state = .pendingDestroy ∨ op.state = .terminal then .ok c
      else .ok { c with log := c.log ++ [.delivered id msg.topic msg.payload] }

/-- `s_apply_publish_to_streaming_operation_list` (784-833). -/
def Client.deliver (msg : Message) (c : Client) (ids : List Nat) : Except Fault Client := each (Client.deliverOne msg) c ids

/-- `s_complete_operation_with_correlation_token` (835-885). -/
def Client.respond (c : Client) (token : Bytes) (msg : Message) : Except Fault Client :=
  match c.tokens.get token with
  | none => .ok c
  | some id =>
    match c.ops.get id with
    | none => .error .freed
    | some op =>
      match op.body with
      | .stream _ => .error .abort                                                  -- 860
      | .request _ =>
        if op.state = .pendingDestroy then .ok c
        else Client.releaseOp { c with ops := c.ops.set id { op with state := .pendingDestroy }
                                       log := c.log ++ [.response id msg.topic msg.payload] } id

/-- `aws_json_value_get_from_object` (aws-c-common) on the members. -/
def member (cfg : Config) (key : Bytes) : List (Bytes × Json) → Option Json
  | [] => none
  | (k, v) :: ms => if cfg.sameKey k key then some v else member cfg key ms

/-- Walk along the segments of a path (915-940). -/
def walk (cfg : Config) : List Bytes → Json → Option Json
  | [], j => some j
  | s :: ss, .object ms =>
    match member cfg s ms with
    | none => none
    | some j => walk cfg ss j
  | _ :: _, _ => none

/-- The correlation token of a publish (900-965). -/
def tokenOf (cfg : Config) (tokenPath : Bytes) (json : Option Json) : Option Bytes :=
  if tokenPath.isEmpty then some []
  else match json with
    | none => none
    | some j =>
      match walk cfg (split 46 tokenPath) j with
      | some (.string s) => some s
      | _ => none

/-- `s_apply_publish_to_response_path_entry` (887-974). -/
def Client.applyResponse (cfg : Config) (c : Client) (e : PathEntry) (msg : Message) : Except Fault Client :=
  match tokenOf cfg e.tokenPath msg.json with
  | none => .ok c
  | some token => c.respond token msg

/-- Levels of a filter against levels of a topic; the loop of `s_is_topic_matched_to_subscription`
(request_response_subscription_set.c:246-265). -/
def matchLevels : List Bytes → List Bytes → Bool
  | [], ts => ts.isEmpty
  | _ :: _, [] => false
  | f :: fs, t :: ts => if f = [35] then true else if f ≠ [43] ∧ t ≠ f then false else matchLevels fs ts

/-- `s_is_topic_matched_to_subscription` (request_response_subscription_set.c:233-268). -/
def matchesFilter (topic filter : Bytes) : Bool := matchLevels (split 47 filter) (split 47 topic)

/-- `s_match_stream_subscriptions` (request_response_subscription_set.c:218-231). -/
def Client.deliverExact (c : Client) (msg : Message) : Except Fault Client :=
  match c.streams.get msg.topic with
  | none => .ok c
  | some ids => c.deliver msg ids

/-- `s_match_wildcard_stream_subscriptions` (request_response_subscription_set.c:270-292). -/
def Client.deliverWildcards (msg : Message) : Client → AMap Bytes (List Nat) → Except Fault Client
  | c, [] => .ok c
  | c, (f, ids) :: m =>
    if matchesFilter msg.topic f then
      match c.deliver msg ids with
      | .error e => .error e
      | .ok c => Client.deliverWildcards msg c m
    else Client.deliverWildcards msg c m

/-- `s_aws_rr_client_protocol_adapter_incoming_publish_callback` (976-994) and
`aws_mqtt_request_response_client_subscriptions_handle_incoming_publish`
(request_response_subscription_set.c:308-336). -/
def Client.onPublish (cfg : Config) (c : Client) (msg : Message) : Except Fault Client :=
  if c.phase ≠ .active then .ok c
  else
    match c.deliverExact msg with
    | .error e => .error e
    | .ok c =>
      match Client.deliverWildcards msg c c.wildcards with
      | .error e => .error e
      | .ok c =>
        match c.paths.get msg.topic with
        | none => .ok c
        | some e => c.applyResponse cfg e msg

/-- `aws_mqtt_request_response_client_subscriptions_add_request_subscription`
(request_response_subscription_set.c:171-194) for each path (1219-1234). -/
def addPaths : List Path → AMap Bytes PathEntry → AMap Bytes PathEntry
  | [], m => m
  | p :: ps, m =>
    addPaths ps (m.set p.topic (match m.get p.topic with
      | some e => { e with refs := e.refs + 1 }
      | none => ⟨1, p.tokenPath⟩))

/-- `aws_mqtt_request_response_client_subscriptions_remove_request_subscription`
(request_response_subscription_set.c:196-216) for each path (1724-1739). -/
def removePaths : List Path → AMap Bytes PathEntry → AMap Bytes PathEntry
  | [], m => m
  | p :: ps, m =>
    removePaths ps (match m.get p.topic with
      | none => m
      | some e => if e.refs = 1 then m.del p.topic else m.set p.topic { e with refs := e.refs - 1 })

/-- `s_is_topic_filter_with_wildcard` (request_response_subscription_set.c:138-141). -/
def hasWildcard (filter : Bytes) : Bool := filter.contains 43 || filter.contains 35

/-- `s_add_in_progress_operation_to_tracking_tables` (1247-1267) for an operation that is in no list. -/
def Client.addToTables (c : Client) (id : Nat) (op : Op) : Client :=
  let c := match op.body with
    | .stream f =>
      if hasWildcard f then { c with wildcards := c.wildcards.set f ((c.wildcards.get f).getD [] ++ [id]) }
      else { c with streams := c.streams.set f ((c.streams.get f).getD [] ++ [id]) }
    | .request r => { c with paths := addPaths r.paths c.paths, tokens := c.tokens.set r.token id }
  { c with ops := c.ops.set id { op with inTables := true } }

/-- Change the state of an operation. -/
def Client.setState (c : Client) (id : Nat) (s : OpState) : Client :=
  match c.ops.get id with
  | none => c
  | some op => { c with ops := c.ops.set id { op with state := s } }

/-- `s_handle_operation_subscribe_result` (1269-1298). -/
def Client.onAcquired (c : Client) (env : Env) (id : Nat) (res : Acquired) : Except Fault Client :=
  match c.ops.get id with
  | none => .error .freed
  | some op =>
    match res with
    | .failure => c.failOp id .subscribeFailure
    | .noCapacity => c.failOp id .noCapacity
    | .blocked => .ok c                                                              -- not called
    | .subscribing => .ok ((c.addToTables id op).setState id .pendingSubscription)
    | .subscribed =>
      let c := c.addToTables id op
      match op.body with
      | .stream _ =>
        let c := c.setState id .subscribed
        .ok { c with log := c.log ++ [.status id .established] }
      | .request _ => c.makeRequest env id

/-- `s_can_operation_dequeue` (1309-1325). -/
def Client.canDequeue (c : Client) (op : Op) : Bool :=
  match op.body with
  | .stream _ => true
  | .request r => (c.tokens.get r.token).isNone

/-- The loop of `s_process_queued_operations` (1348-1381). -/
def Client.dequeue (cfg : Config) (env : Env) : Client → List Nat → Except Fault Client
  | c, [] => .ok c
  | c, id :: q =>
    match c.ops.get id with
    | none => .error .freed
    | some op =>
      if c.canDequeue op then
        match c.manager.acquire cfg.manager env.toEnv op.body.filters id op.body.kind with
        | .error f => .error (.manager f)
        | .ok (res, m) =>
          match c.absorb m with
          | .error f => .error f
          | .ok c =>
            if res = .blocked then .ok c
            else
              match Client.onAcquired { c with queue := q } env id res with
              | .error f => .error f
              | .ok c => Client.dequeue cfg env c q
      else .ok c

/-- `s_process_queued_operations` (1345-1382). -/
def Client.processQueue (cfg : Config) (env : Env) (c : Client) : Except Fault Client :=
  match c.manage (c.manager.purge env.toEnv) with
  | .error f => .error f
  | .ok c => Client.dequeue cfg env c c.queue

/-- Time of an operation in the heap. -/
def Client.timeoutOf (c : Client) (id : Nat) : Nat := ((c.ops.get id).map Op.timeout).getD 0

/-- `s_mqtt_request_response_client_get_next_service_time` (1175-1187). -/
def Client.nextService (c : Client) : Nat := (c.timeouts.map c.timeoutOf).foldl min never

/-- `s_mqtt_request_response_service_task_fn` (1384-1416); `expired` is what `s_check_for_operation_timeouts` (1147-1173)
takes off the heap. -/
def Client.service (cfg : Config) (env : Env) (c : Client) (expired : List Nat) : Except Fault Client :=
  if c.phase ≠ .active then .ok { c with scheduled := 0 }
  else
    match each (fun c i => Client.failOp { c with timeouts := c.timeouts.erase i } i .timeout)
        { c with scheduled := 0 } expired with
    | .error f => .error f
    | .ok c =>
      match c.processQueue cfg env with
      | .error f => .error f
      | .ok c => .ok { c with scheduled := c.nextService }

/-- `s_mqtt_request_response_client_initialize_task_fn` (1418-1445). -/
def Client.initialize (c : Client) (env : Env) : Client :=
  let c := if c.phase = .uninitialized then
      { c with manager := .new env.connected, phase := .active, scheduled := never }
    else c
  { c with log := c.log ++ [.initialized] }

/-- `s_mqtt_rr_client_submit_operation` (1647-1696). -/
def Client.submit (c : Client) (now : Nat) (id : Nat) : Except Fault Client :=
  match c.ops.get id with
  | none => .error .freed
  | some op =>
    if c.phase = .shuttingDown then
      match c.failOp id .shutDown with
      | .error f => .error f
      | .ok c => c.releaseOp id
    else
      let c := { c with
        ops := c.ops.set id { op with tracked := true, state := .queued }
        timeouts := (match op.body with
          | .request _ => c.timeouts ++ [id]
          | .stream _ => c.timeouts)
        queue := c.queue ++ [id] }
      (c.wake now).releaseOp id

/-- `s_remove_operation_from_client_tables` (1708-1740). -/
def Client.removeFromTables (c : Client) (op : Op) : Client :=
  match op.body with
  | .stream _ => c
  | .request r =>
    if op.inTables then { c with tokens := c.tokens.del r.token, paths := removePaths r.paths c.paths } else c

/-- Take an operation out of the list it is in. -/
def dropFrom (m : AMap Bytes (List Nat)) (id : Nat) : AMap Bytes (List Nat) := m.map fun e => (e.1, e.2.filter (· != id))

/-- `s_mqtt_rr_client_destroy_operation` (1742-1787). -/
def Client.destroy (c : Client) (id : Nat) : Except Fault Client :=
  match c.ops.get id with
  | none => .error .freed
  | some op =>
    let c := { c with
      timeouts := c.timeouts.filter (· != id)
      queue := c.queue.filter (· != id)
      streams := dropFrom c.streams id
      wildcards := dropFrom c.wildcards id }
    match (if c.phase ≠ .shuttingDown then c.absorb (c.manager.release op.body.filters id) else .ok c) with
    | .error f => .error f
    | .ok c =>
      let c := c.removeFromTables op
      .ok { c with ops := c.ops.del id
                   log := (match op.body with
                     | .stream _ => c.log ++ [.closedDown id]
                     | .request _ => c.log) }

/-- `s_mqtt_request_response_client_external_shutdown_task_fn` (451-489). -/
def Client.shutdown (c : Client) (env : Env) : Except Fault Client :=
  let c := { c with phase := .shuttingDown, scheduled := 0 }
  match c.manage (c.manager.cleanUp env.toEnv) with
  | .error f => .error f
  | .ok c =>
    match each (fun c i => c.publishDone i false) c env.aborted with
    | .error f => .error f
    | .ok c => each (fun c i => c.failOp i .shutDown) c ((c.ops.filter fun e => e.2.tracked).map (·.1))

/-- Run a task. -/
def Client.run (c : Client) (env : Env) (now : Nat) : Task → Except Fault Client
  | .initialize => .ok (c.initialize env)
  | .submit id => c.submit now id
  | .status s => c.onStatus env now s
  | .destroy id => c.destroy id
  | .shutdown => c.shutdown env

/-- `s_are_request_operation_options_valid` (1556-1620). -/
def Request.valid (r : Request) : Bool :=
  !r.paths.isEmpty && r.paths.all (fun p => isValidTopic p.topic) && isValidTopic r.topic &&
    !r.filters.isEmpty && r.filters.all isValidTopicFilter && !r.payload.isEmpty

/-- `aws_mqtt_request_response_client_submit_request` (1966-2015). -/
def Client.submitRequest (cfg : Config) (c : Client) (now : Nat) (r : Request) : Client :=
  if r.valid then
    { c with
      nextId := c.nextId + 1
      ops := c.ops.set c.nextId
        { body := .request r, timeout := (now + cfg.timeoutSeconds * 1000000000) % u64, pendingSubs := r.filters.length,
          refs := 2 }
      tasks := c.tasks ++ [.submit c.nextId]
      log := c.log ++ [.submitted c.nextId r] }
  else c

/-- `aws_mqtt_request_response_client_create_streaming_operation` (2052-2088). -/
def Client.openStream (c : Client) (filter : Bytes) : Client :=
  if isValidTopicFilter filter then
    { c with
      nextId := c.nextId + 1
      ops := c.ops.set c.nextId { body := .stream filter, timeout := never, pendingSubs := 1, held := true, refs := 1 }
      log := c.log ++ [.opened c.nextId filter] }
  else c

/-- `aws_mqtt_rr_client_operation_activate` (2090-2114). -/
def Client.activate (c : Client) (id : Nat) : Except Fault Client :=
  match c.ops.get id with
  | none => .error .freed
  | some op =>
    if op.activated then .ok c
    else .ok { c with ops := c.ops.set id { op with activated := true, refs := op.refs + 1 }
                      tasks := c.tasks ++ [.submit id] }

/-- The user releases a stream. -/
def Client.close (c : Client) (id : Nat) : Except Fault Client :=
  match c.ops.get id with
  | none => .error .freed
  | some op => Client.releaseOp { c with ops := c.ops.set id { op with held := false }, log := c.log ++ [.closed id] } id

/-- Calls of the client, notifications of the protocol adapter and work of the event loop. -/
inductive Event where
  | submit (r : Request)
  | openStream (filter : Bytes)
  | activate (id : Nat)
  | close (id : Nat)
  /-- `aws_mqtt_request_response_client_release` (1545-1551). -/
  | release
  /-- Run the task at a position. -/
  | task (env : Env) (k : Nat)
  | service (env : Env) (expired : List Nat)
  | finished (env : Env) (filter : Bytes) (a : Action) (ok retryable : Bool)
  | connection (env : Env) (up joined : Bool)
  | publish (msg : Message)
  | publishDone (id : Nat) (ok : Bool)
  /-- `s_aws_rr_client_protocol_adapter_terminate_callback` (996-1001). -/
  | adapterTerminated
  /-- `s_mqtt_request_response_client_final_destroy` (310-328). -/
  | terminate

/-- One event at time `now`. -/
def stepAt (cfg : Config) (c : Client) (now : Nat) : Event → Except Fault Client
  | .submit r => .ok (c.submitRequest cfg now r)
  | .openStream f => .ok (c.openStream f)
  | .activate id => c.activate id
  | .close id => c.close id
  | .release => .ok { c with held := false, tasks := c.tasks ++ [.shutdown] }
  | .task env k =>
    match c.tasks[k]? with
    | none => .ok c
    | some t => Client.run { c with tasks := c.tasks.eraseIdx k } env now t
  | .service env expired => c.service cfg env expired
  | .finished env f a ok retryable =>
    if c.phase ≠ .active then .ok c                                                 -- 777
    else c.manage (c.manager.onSubscription env.toEnv f a ok retryable)
  | .connection env up joined =>
    if c.phase ≠ .active then .ok c                                                 -- 1010
    else c.manage (c.manager.onConnection env.toEnv up joined)
  | .publish msg => c.onPublish cfg msg
  | .publishDone id ok => c.publishDone id ok
  | .adapterTerminated => .ok { c with adapter := false }
  | .terminate =>
    if c.ops.any (fun e => e.2.tracked) then .error .abort                          -- 314
    else .ok { c with terminated := true, log := c.log ++ [.terminated] }

/-- Sorted by time. -/
def Sorted (c : Client) : List Nat → Prop
  | [] => True
  | i :: is => (∀ j ∈ is, c.timeoutOf i ≤ c.timeoutOf j) ∧ Sorted c is

/-- What the heap gives at time `now`: everything that is due, the earliest first. -/
def Expired (c : Client) (now : Nat) (expired : List Nat) : Prop :=
  expired.Perm (c.timeouts.filter fun i => decide (c.timeoutOf i ≤ now)) ∧ Sorted c expired

/-- What the surroundings guarantee. -/
def Enabled (c : Client) (now : Nat) : Event → Prop
  | .submit _ | .openStream _ | .release => c.held = true
  | .activate id | .close id => ∃ op f, c.ops.get id = some op ∧ op.body = .stream f ∧ op.held = true
  | .task env k => ∃ t, c.tasks[k]? = some t ∧ (t = .initialize ∨ Task.initialize ∉ c.tasks) ∧
      ∀ i, env.aborted.count i ≤ c.publishes.count i
  | .service _ expired => c.scheduled ≠ 0 ∧ c.scheduled ≤ now ∧ Expired c now expired
  | .finished _ f a _ _ => c.adapter = true ∧ (c.phase = .active → Rr.outstanding c.manager.log a f > 0)
  | .connection .. | .publish _ => c.adapter = true
  | .publishDone id _ => id ∈ c.publishes
  | .adapterTerminated => c.adapter = true ∧ c.phase = .shuttingDown
  | .terminate => c.phase = .shuttingDown ∧ c.adapter = false ∧ c.ops = [] ∧ c.publishes = [] ∧
      Task.initialize ∉ c.tasks ∧ ∀ s, Task.status s ∉ c.tasks

/-- The same tables with another iteration order. -/
structure Rehash (c c' : Client) : Prop where
  ops : c'.ops.Perm c.ops
  tokens : c'.tokens.Perm c.tokens
  paths : c'.paths.Perm c.paths
  streams : c'.streams.Perm c.streams
  wildcards : c'.wildcards.Perm c.wildcards
  manager : Rr.Rehash c.manager.records c'.manager.records
  same : c' = { c with ops := c'.ops, tokens := c'.tokens, paths := c'.paths, streams := c'.streams,
                       wildcards := c'.wildcards, manager := { c.manager with records := c'.manager.records } }

/-- States after any history whose events satisfy `allowed`. -/
inductive Reachable (cfg : Config) (allowed : Client → Event → Prop) : Client → Prop where
  | new : Reachable cfg allowed {}
  | step {c c' : Client} {now : Nat} {e : Event} : Reachable cfg allowed c → c.terminated = false → c.clock ≤ now →
    Enabled c now e → allowed c e → stepAt cfg { c with clock := now } now e = .ok c' → Reachable cfg allowed c'
  | rehash {c c' : Client} : Reachable cfg allowed c → Rehash c c' → Reachable cfg allowed c'

/-- No restriction. -/
def anything (_ : Client) (_ : Event) : Prop := True

end Mqtt.RrClient
