import Verif.Basic
import Verif.Map

/-!
The subscription manager of the request-response client (source/request-response/subscription_manager.c).

The hash table of records is a finite map, the one of listeners a list without repetition. Their iteration order is
unspecified in C; `Rehash` lets it change between any two calls. The protocol adapter is outside the model: each call of
its `subscribe` and `unsubscribe` succeeds or not as `Env` says, and completions arrive as events. The log records what
is called from outside and what the manager calls. Logging, allocation and `operation_timeout_seconds` are left out.
-/
namespace Mqtt.Rr

/-- `enum aws_rr_subscription_type` (subscription_manager.h:139-142). -/
inductive Kind where
  | stream
  | request
deriving DecidableEq, Repr

/-- `enum aws_rr_subscription_pending_action_type` (subscription_manager.c:25-29). -/
inductive Pending where
  | nothing
  | subscribing
  | unsubscribing
deriving DecidableEq, Repr

/-- `struct aws_rr_subscription_record` (subscription_manager.c:55-76). -/
structure Record where
  kind : Kind
  listeners : List Nat := []
  /-- `status == ARRSST_SUBSCRIBED`. -/
  subscribed : Bool := false
  pending : Pending := .nothing
  poisoned : Bool := false
deriving DecidableEq, Repr

/-- `enum aws_rr_subscription_event_type` (subscription_manager.h:20-75). -/
inductive StatusType where
  | subscribeSuccess
  | subscribeFailure
  | subscriptionEnded
  | established
  | lost
  | halted
  | empty
  | unsubscribeComplete
deriving DecidableEq, Repr

/-- `struct aws_rr_subscription_status_event`. -/
structure Status where
  type : StatusType
  filter : Bytes
  op : Nat
deriving DecidableEq, Repr

/-- `enum aws_protocol_adapter_subscription_event_type`. -/
inductive Action where
  | subscribe
  | unsubscribe
deriving DecidableEq, Repr

/-- What is seen at the boundary of the manager. -/
inductive Trace where
  /-- A successful call of `aws_mqtt_protocol_adapter_subscribe` or `_unsubscribe`. -/
  | issued (a : Action) (filter : Bytes)
  /-- Its completion. -/
  | finished (a : Action) (filter : Bytes) (ok : Bool)
  /-- An operation has become a listener of a filter. -/
  | acquired (op : Nat) (filter : Bytes) (kind : Kind)
  /-- An operation no longer needs a filter. -/
  | released (op : Nat) (filter : Bytes)
  | status (s : Status)
  /-- A connection without the previous session. -/
  | sessionLost
  | closed
deriving DecidableEq, Repr

/-- Ways the C code fails. -/
inductive Fault where
  /-- A failed `AWS_FATAL_ASSERT`. -/
  | abort
  /-- A null pointer is used. -/
  | null
deriving DecidableEq, Repr

/-- `struct aws_rr_subscription_manager_options`. -/
structure Config where
  maxRequest : Nat
  maxStream : Nat
deriving DecidableEq, Repr

/-- Results of the protocol adapter's synchronous part. -/
structure Env where
  subscribe : Bytes → Bool := fun _ => true
  unsubscribe : Bytes → Bool := fun _ => true

/-- `struct aws_rr_subscription_manager`. -/
structure Manager where
  records : AMap Bytes Record := []
  connected : Bool := false
  closed : Bool := false
  log : List Trace := []
deriving DecidableEq, Repr

/-- `s_subscription_record_unsubscribe` (115-165). -/
def unsubscribe (env : Env) (f : Bytes) (r : Record) (shutdown : Bool) (log : List Trace) : Record × List Trace :=
  if r.subscribed && r.pending != .unsubscribing || shutdown && r.pending == .subscribing then
    if env.unsubscribe f then ({ r with pending := .unsubscribing }, log ++ [.issued .unsubscribe f])
    else (r, log)
  else (r, log)

/-- `s_subscription_type_matches_event_type` (349-366). -/
def matchesType : Kind → StatusType → Bool
  | k, .subscribeSuccess | k, .subscribeFailure | k, .subscriptionEnded => k == .request
  | k, .established | k, .lost | k, .halted => k == .stream
  | _, .empty | _, .unsubscribeComplete => true

/-- `s_emit_subscription_event` (368-395). -/
def emit (f : Bytes) (r : Record) (t : StatusType) (log : List Trace) : Except Fault (List Trace) :=
  if matchesType r.kind t then .ok (log ++ r.listeners.map fun i => .status ⟨t, f, i⟩) else .error .abort

/-- `s_rr_activate_idle_subscription` (397-445). The first component tells whether it succeeded. -/
def activate (connected : Bool) (env : Env) (f : Bytes) (r : Record) (log : List Trace) :
    Except Fault (Bool × Record × List Trace) :=
  if r.poisoned then .ok (true, r, log)
  else if connected && !r.listeners.isEmpty && !r.subscribed && r.pending == .nothing then
    if env.subscribe f then .ok (true, { r with pending := .subscribing }, log ++ [.issued .subscribe f])
    else match r.kind with
      | .request =>
        match emit f r .subscribeFailure log with
        | .error e => .error e
        | .ok log => .ok (false, r, log)
      | .stream =>
        let r := { r with poisoned := true }
        match emit f r .halted log with
        | .error e => .error e
        | .ok log => .ok (false, r, log)
  else .ok (true, r, log)

/-- `aws_hash_table_foreach` with a callback that may delete the element. -/
def foreach (g : Bytes → Record → List Trace → Except Fault (Option Record × List Trace)) :
    AMap Bytes Record → List Trace → Except Fault (AMap Bytes Record × List Trace)
  | [], log => .ok ([], log)
  | (f, r) :: m, log =>
    match g f r log with
    | .error e => .error e
    | .ok (r', log) =>
      match foreach g m log with
      | .error e => .error e
      | .ok (m', log) => .ok ((match r' with
        | some r' => (f, r') :: m'
        | none => m'), log)

/-- `s_rr_subscription_purge_unused_subscriptions_wrapper` (285-311). -/
def purgeOne (connected : Bool) (env : Env) (f : Bytes) (r : Record) (log : List Trace) :
    Except Fault (Option Record × List Trace) :=
  if r.listeners.isEmpty then
    let (r, log) := if connected then unsubscribe env f r false log else (r, log)
    if !r.subscribed && r.pending == .nothing then .ok (none, log) else .ok (some r, log)
  else .ok (some r, log)

/-- `aws_rr_subscription_manager_purge_unused` (313-317). -/
def Manager.purge (m : Manager) (env : Env) : Except Fault Manager :=
  match foreach (purgeOne m.connected env) m.records m.log with
  | .error e => .error e
  | .ok (records, log) => .ok { m with records, log }

/-- `enum aws_acquire_subscription_result_type`. -/
inductive Acquired where
  | subscribed
  | subscribing
  | blocked
  | noCapacity
  | failure
deriving DecidableEq, Repr

/-- Number of records of a kind; `s_get_subscription_stats` (200-230). -/
def count (m : AMap Bytes Record) (k : Kind) : Nat := m.countP fun e => e.2.kind == k

/-- Number of streaming records that are being unsubscribed (200-230). -/
def countUnsubscribing (m : AMap Bytes Record) : Nat :=
  m.countP fun e => e.2.kind == .stream && e.2.pending == .unsubscribing

/-- Subtraction of `size_t`. -/
def subSize (a b : Nat) : Nat := if b ≤ a then a - b else 2 ^ 64 + a - b

/-- `s_add_listener_to_subscription_record` (268-283): the set of listeners does not have repetitions. -/
def addListener (r : Record) (op : Nat) : Record :=
  { r with listeners := if op ∈ r.listeners then r.listeners else r.listeners ++ [op] }

/-- The third loop of `aws_rr_subscription_manager_acquire_subscription` (556-570). -/
def listen (op : Nat) (kind : Kind) : List Bytes → AMap Bytes Record → List Trace → Bool →
    AMap Bytes Record × List Trace × Bool
  | [], m, log, full => (m, log, full)
  | f :: fs, m, log, full =>
    let r := (m.get f).getD { kind := kind }
    listen op kind fs (m.set f (addListener r op)) (log ++ [.acquired op f kind]) (full && r.subscribed)

/-- The fourth loop (581-593). -/
def activateAll (connected : Bool) (env : Env) : List Bytes → AMap Bytes Record → List Trace →
    Except Fault (Bool × AMap Bytes Record × List Trace)
  | [], m, log => .ok (true, m, log)
  | f :: fs, m, log =>
    match m.get f with
    | none => .error .null
    | some r =>
      match activate connected env f r log with
      | .error e => .error e
      | .ok (ok, r, log) =>
        if ok then activateAll connected env fs (m.set f r) log else .ok (false, m.set f r, log)

/-- `aws_rr_subscription_manager_acquire_subscription` (447-602). -/
def Manager.acquire (cfg : Config) (m : Manager) (env : Env) (fs : List Bytes) (op : Nat) (kind : Kind) :
    Except Fault (Acquired × Manager) :=
  if fs.isEmpty then .ok (.failure, m)                                              -- 451-458
  else if fs.any (fun f => (m.records.get f).any fun r => r.poisoned || r.kind != kind) then .ok (.failure, m)
  else if fs.any (fun f => (m.records.get f).any fun r => r.pending == .unsubscribing) then .ok (.blocked, m)
  else
    let needed := fs.countP fun f => (m.records.get f).isNone                       -- 492-510
    if kind == .request && decide (needed > 0) && decide (needed > subSize cfg.maxRequest (count m.records .request)) then
      .ok (.blocked, m)                                                             -- 518-528
    else if kind == .stream && decide (needed > 0) && decide (needed + count m.records .stream > cfg.maxStream) then
      if needed + count m.records .stream ≤ cfg.maxStream + countUnsubscribing m.records then .ok (.blocked, m)
      else .ok (.noCapacity, m)                                                     -- 529-553
    else
      let (records, log, full) := listen op kind fs m.records m.log true
      if full then .ok (.subscribed, { m with records, log })
      else
        match activateAll m.connected env fs records log with
        | .error e => .error e
        | .ok (ok, records, log) => .ok (if ok then .subscribing else .failure, { m with records, log })

/-- `s_remove_listener_from_subscription_record` (232-266). -/
def releaseOne (m : AMap Bytes Record) (log : List Trace) (f : Bytes) (op : Nat) : AMap Bytes Record × List Trace :=
  let log := log ++ [.released op f]
  match m.get f with
  | none => (m, log)
  | some r =>
    let r := { r with listeners := r.listeners.filter (· != op) }
    (m.set f r, if r.listeners.isEmpty then log ++ [.status ⟨.empty, f, 0⟩] else log)

/-- `aws_rr_subscription_manager_release_subscription` (604-611). -/
def Manager.release (m : Manager) : List Bytes → Nat → Manager
  | [], _ => m
  | f :: fs, op =>
    let (records, log) := releaseOne m.records m.log f op
    Manager.release { m with records, log } fs op

/-- `s_handle_protocol_adapter_request_subscription_event` (613-644). -/
def requestEvent (f : Bytes) (r : Record) (a : Action) (ok : Bool) (log : List Trace) :
    Except Fault (Record × List Trace) :=
  match a with
  | .subscribe =>
    if r.pending == .subscribing then
      let r := { r with pending := .nothing }
      let r := if ok then { r with subscribed := true } else r
      match emit f r (if ok then .subscribeSuccess else .subscribeFailure) log with
      | .error e => .error e
      | .ok log => .ok (r, log)
    else .error .abort                                                              -- 618
  | .unsubscribe =>
    if r.pending == .unsubscribing then
      let r := { r with pending := .nothing }
      if ok then .ok ({ r with subscribed := false }, log ++ [.status ⟨.unsubscribeComplete, f, 0⟩])
      else .ok (r, log)
    else .error .abort                                                              -- 629

/-- `s_handle_protocol_adapter_streaming_subscription_event` (646-682). -/
def streamEvent (connected : Bool) (env : Env) (f : Bytes) (r : Record) (a : Action) (ok retryable : Bool)
    (log : List Trace) : Except Fault (Record × List Trace) :=
  match a with
  | .subscribe =>
    if r.pending == .subscribing then
      let r := { r with pending := .nothing }
      if ok then
        let r := { r with subscribed := true }
        match emit f r .established log with
        | .error e => .error e
        | .ok log => .ok (r, log)
      else if retryable then
        match activate connected env f r log with
        | .error e => .error e
        | .ok (_, r, log) => .ok (r, log)
      else
        let r := { r with poisoned := true }
        match emit f r .halted log with
        | .error e => .error e
        | .ok log => .ok (r, log)
    else .error .abort                                                              -- 651
  | .unsubscribe =>
    if r.pending == .unsubscribing then
      let r := { r with pending := .nothing }
      if ok then .ok ({ r with subscribed := false }, log ++ [.status ⟨.unsubscribeComplete, f, 0⟩])
      else .ok (r, log)
    else .error .abort                                                              -- 667

/-- `aws_rr_subscription_manager_on_protocol_adapter_subscription_event` (684-706). -/
def Manager.onSubscription (m : Manager) (env : Env) (f : Bytes) (a : Action) (ok retryable : Bool) :
    Except Fault Manager :=
  let log := m.log ++ [.finished a f ok]
  match m.records.get f with
  | none => .ok { m with log }
  | some r =>
    match (match r.kind with
      | .request => requestEvent f r a ok log
      | .stream => streamEvent m.connected env f r a ok retryable log) with
    | .error e => .error e
    | .ok (r, log) => .ok { m with records := m.records.set f r, log }

/-- `s_apply_session_lost_wrapper` (721-741). -/
def lostOne (f : Bytes) (r : Record) (log : List Trace) : Except Fault (Option Record × List Trace) :=
  if r.subscribed then
    let r := { r with subscribed := false }
    match r.kind with
    | .request =>
      match emit f r .subscriptionEnded log with
      | .error e => .error e
      | .ok log => .ok (if r.pending != .unsubscribing then none else some r, log)
    | .stream =>
      match emit f r .lost log with
      | .error e => .error e
      | .ok log => .ok (some r, log)
  else .ok (some r, log)

/-- `s_apply_streaming_resubscribe_wrapper` (743-752). -/
def resubscribeOne (connected : Bool) (env : Env) (f : Bytes) (r : Record) (log : List Trace) :
    Except Fault (Option Record × List Trace) :=
  match r.kind with
  | .stream =>
    match activate connected env f r log with
    | .error e => .error e
    | .ok (_, r, log) => .ok (some r, log)
  | .request => .ok (some r, log)

/-- `s_rr_activate_idle_subscriptions_wrapper` (708-715). -/
def activateOne (connected : Bool) (env : Env) (f : Bytes) (r : Record) (log : List Trace) :
    Except Fault (Option Record × List Trace) :=
  match activate connected env f r log with
  | .error e => .error e
  | .ok (_, r, log) => .ok (some r, log)

/-- `s_apply_session_lost` (754-757). -/
def Manager.sessionLost (m : Manager) (env : Env) : Except Fault Manager :=
  match foreach lostOne m.records (m.log ++ [.sessionLost]) with
  | .error e => .error e
  | .ok (records, log) =>
    match foreach (resubscribeOne m.connected env) records log with
    | .error e => .error e
    | .ok (records, log) => .ok { m with records, log }

/-- `aws_rr_subscription_manager_on_protocol_adapter_connection_event` (759-784). -/
def Manager.onConnection (m : Manager) (env : Env) (up joined : Bool) : Except Fault Manager :=
  if up then
    let m := { m with connected := true }
    match (if joined then .ok m else m.sessionLost env) with
    | .error e => .error e
    | .ok m =>
      match m.purge env with
      | .error e => .error e
      | .ok m =>
        match foreach (activateOne m.connected env) m.records m.log with
        | .error e => .error e
        | .ok (records, log) => .ok { m with records, log }
  else .ok { m with connected := false }

/-- `aws_rr_subscription_manager_clean_up` (819-822, 167-176). -/
def Manager.cleanUp (m : Manager) (env : Env) : Except Fault Manager :=
  match foreach (fun f r log => .ok (none, (unsubscribe env f r true log).2)) m.records (m.log ++ [.closed]) with
  | .error e => .error e
  | .ok (records, log) => .ok { m with records, log, closed := true }

/-- Calls of the manager. -/
inductive Event where
  | acquire (env : Env) (filters : List Bytes) (op : Nat) (kind : Kind)
  | release (filters : List Bytes) (op : Nat)
  | purge (env : Env)
  | finished (env : Env) (filter : Bytes) (a : Action) (ok retryable : Bool)
  | connection (env : Env) (up joined : Bool)
  | cleanUp (env : Env)

def step (cfg : Config) (m : Manager) : Event → Except Fault Manager
  | .acquire env fs op kind =>
    match m.acquire cfg env fs op kind with
    | .error e => .error e
    | .ok (_, m) => .ok m
  | .release fs op => .ok (m.release fs op)
  | .purge env => m.purge env
  | .finished env f a ok retryable => m.onSubscription env f a ok retryable
  | .connection env up joined => m.onConnection env up joined
  | .cleanUp env => m.cleanUp env

/-- Change of the number of calls that are not completed. -/
def Trace.change (a : Action) (f : Bytes) : Trace → Int
  | .issued b g => if b = a ∧ g = f then 1 else 0
  | .finished b g _ => if b = a ∧ g = f then -1 else 0
  | _ => 0

/-- How many calls of a kind for a filter are not completed. -/
def outstanding (log : List Trace) (a : Action) (f : Bytes) : Int := (log.map (·.change a f)).sum

/-- What the surroundings guarantee: the manager is not used after `clean_up`, and only what has been issued completes. -/
def Enabled (m : Manager) : Event → Prop
  | .finished _ f a _ _ => m.closed = false ∧ outstanding m.log a f > 0
  | _ => m.closed = false

/-- The same tables with another iteration order. -/
def Rehash (m m' : AMap Bytes Record) : Prop :=
  ∃ g : Bytes → Record → List Nat, (∀ f r, (g f r).Perm r.listeners) ∧
    m'.Perm (m.map fun e => (e.1, { e.2 with listeners := g e.1 e.2 }))

/-- `aws_rr_subscription_manager_init` (794-817). -/
def Manager.new (connected : Bool) : Manager := { connected }

/-- States after any sequence of calls. -/
inductive Reachable (cfg : Config) : Manager → Prop where
  | new (connected : Bool) : Reachable cfg (.new connected)
  | step {m m' : Manager} {e : Event} : Reachable cfg m → Enabled m e → step cfg m e = .ok m' → Reachable cfg m'
  | rehash {m : Manager} {records : AMap Bytes Record} : Reachable cfg m → Rehash m.records records →
    Reachable cfg { m with records }

end Mqtt.Rr
