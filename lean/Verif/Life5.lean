import Verif.Basic

/-!
How long an MQTT 5 client lives (/repo/source/v5/mqtt5_client.c, line numbers below): its reference count, the tasks that use it, the
connection attempts with and without websockets, and its end.

The event loop of the client first runs the tasks that were to be run at once, in order, then those whose time has come, and tasks
that are scheduled meanwhile wait for the next turn (aws-c-common, task_scheduler.c). A task that is cancelled is removed. Tasks are
not cancelled because the event loop ends. What operations do to the client is left open: they may end a connection and change when
the client is to be serviced next. A task that the client is serviced with at the current time is due in the next turn or later.

The user calls functions of the client only while they have a reference, and completes each handshake transformation once and with the
request that was given (mqtt5_client.h). Listeners and adapters are users. The socket layer reports each connection that it was asked
for once, and the end of each connection that it reported.
-/
namespace Mqtt.Life5

/-- `desired_state`. -/
inductive Desired where
  | stopped
  | connected
  | terminated
deriving DecidableEq, Repr

/-- `current_state`: `live` is MQTT_CONNECT or CONNECTED, `closing` is CLEAN_DISCONNECT or CHANNEL_SHUTDOWN. -/
inductive Phase where
  | stopped
  | connecting
  | live
  | closing
  | pendingReconnect
deriving DecidableEq, Repr

/-- Tasks: a change of the desired state, another one that a function of the client has scheduled (submit: 2368-2399, PUBACK:
2504-2607), and the end of a handshake transformation (914-974). -/
inductive Task where
  | change (d : Desired)
  | use
  | transformed (ok : Bool)
deriving DecidableEq, Repr

/-- The connection: asked for, a websocket that could not be used and is shut down, or there. -/
inductive Net where
  | none
  | dialing
  | spoiled
  | up
deriving DecidableEq, Repr

/-- The client, and the world around it. -/
structure Client where
  refs : Nat := 1
  desired : Desired := .stopped
  phase : Phase := .stopped
  alive : Bool := true
  /-- The service task waits for its time. -/
  timed : Bool := false
  /-- The service task is run at the end of this turn of the event loop. -/
  due : Bool := false
  /-- Tasks of this turn. -/
  running : List Task := []
  /-- Tasks of the next turn. -/
  asap : List Task := []
  /-- `handshake` is set. -/
  handshake : Bool := false
  /-- References to the handshake request. -/
  request : Nat := 0
  /-- References that the user has. -/
  user : Nat := 1
  /-- The user has yet to complete the handshake transformation. -/
  owed : Bool := false
  net : Net := .none
deriving DecidableEq, Repr

/-- What can be seen. -/
inductive Entry where
  | acquired
  | released
  /-- The reference count becomes 0: `s_on_mqtt5_client_zero_ref_count`. -/
  | zero
  /-- A reference is acquired though there was none. -/
  | revived
  /-- A connection attempt begins. -/
  | attempt
  /-- The user is asked to transform a handshake request. -/
  | asked
  | answered
  /-- The socket layer is asked for a connection. -/
  | dialed
  | opened
  /-- A websocket is there but cannot be used, and is shut down. -/
  | spoiled
  /-- The attempt has failed. -/
  | failed
  | closed
  /-- The handshake request is freed. -/
  | requestFreed
  /-- The client is freed and the termination handler called. -/
  | destroyed
  /-- Freed memory is used, a reference is released that nobody has, or an assertion fails. -/
  | bad
deriving DecidableEq, Repr

/-- What is left open. -/
structure Choice where
  /-- Operations or pings need service. -/
  busy : Bool := false
  /-- The service task is scheduled for the same time as before. -/
  keep : Bool := false
  /-- What is tried succeeds. -/
  ok : Bool := true
deriving DecidableEq, Repr

/-- Whether service is needed (395-533). -/
def Client.wants (c : Client) (busy : Bool) : Bool :=
  match c.phase with
  | .stopped => c.desired ≠ .stopped                                                 -- 395-402
  | .connecting => false                                                             -- 404-409
  | .live => c.desired ≠ .connected || busy                                          -- 411-479
  | .closing => busy                                                                 -- 481-495
  | .pendingReconnect => true                                                        -- 497-503

/-- `s_reevaluate_service_task` (535-567). -/
def Client.reevaluate (c : Client) (x : Choice) : Client :=
  if c.wants x.busy then
    if (c.timed || c.due) && x.keep then c else { c with timed := true, due := false }
  else { c with timed := false, due := false }

/-- `aws_mqtt5_client_acquire` (2149-2155). -/
def Client.acquire (c : Client) : Client × List Entry :=
  ({ c with refs := c.refs + 1 }, if c.refs = 0 then [.revived] else [])

/-- `aws_mqtt5_client_release` (2157-2163) with `s_on_mqtt5_client_zero_ref_count` (286-290). -/
def Client.release (c : Client) : Client × List Entry :=
  if c.refs = 0 then (c, [.bad])
  else if c.refs = 1 then ({ c with refs := 0, asap := c.asap ++ [.change .terminated] }, [.zero])
  else ({ c with refs := c.refs - 1 }, [])

/-- `aws_http_message_release`. -/
def Client.dropRequest (c : Client) : Client × List Entry :=
  if c.request = 0 then (c, [.bad])
  else ({ c with request := c.request - 1 }, if c.request = 1 then [.requestFreed] else [])

/-- The client drops the handshake request, if it has one (877). -/
def Client.dropHandshake (c : Client) : Client × List Entry :=
  if c.handshake then ({ c with handshake := false } : Client).dropRequest else (c, [])

/-- `s_mqtt5_client_shutdown_final` (754-780). -/
def Client.down (c : Client) (x : Choice) : Client :=
  ({ c with phase := if c.desired = .connected then .pendingReconnect else .stopped } : Client).reevaluate x

/-- `s_change_current_state_to_connecting` (1038-1088), `s_websocket_connect` (997-1036); `ws` tells whether websockets are used. -/
def Client.connect (ws : Bool) (c : Client) (x : Choice) : Client × List Entry :=
  if !x.ok then ({ c with phase := .pendingReconnect }, [.attempt, .failed])
  else if ws then ({ c with phase := .connecting, owed := true, request := 1 }, [.attempt, .asked])
  else ({ c with phase := .connecting, net := .dialing }, [.attempt, .dialed])

/-- `s_mqtt5_service_task_fn` (1587-1635) with the functions of the states (1434-1585). -/
def Client.service (ws : Bool) (c : Client) (x : Choice) : Client × List Entry :=
  match c.phase with
  | .stopped =>
    match c.desired with
    | .connected => let r := c.connect ws x; (r.1.reevaluate x, r.2)
    | .terminated => ({ c with alive := false, handshake := false, request := if c.handshake then c.request - 1 else c.request },
        [.destroyed])                                                                -- 1438-1440, 251-284
    | .stopped => (c.reevaluate x, [])
  | .live =>
    if c.desired ≠ .connected || !x.ok then (({ c with phase := .closing } : Client).reevaluate x, [])
    else (c.reevaluate x, [])
  | .pendingReconnect =>
    if c.desired ≠ .connected then (({ c with phase := .stopped } : Client).reevaluate x, [])
    else if x.busy then let r := c.connect ws x; (r.1.reevaluate x, r.2)             -- 1578-1581; `busy`: it is time
    else (c.reevaluate x, [])
  | _ => (c.reevaluate x, [])

/-- `s_change_state_task_fn` (2198-2218); `ok` false: a stop with DISCONNECT ends the connection (2189-2192). -/
def Client.change (c : Client) (d : Desired) (x : Choice) : Client × List Entry :=
  let c :=
    if c.desired = d then c
    else
      let c := { c with desired := d }
      let c := if d = .stopped ∧ !x.ok ∧ c.phase = .live then { c with phase := .closing } else c
      c.reevaluate x
  if d = .terminated then (c, []) else c.release

/-- `s_websocket_transform_complete_task_fn` (914-974). -/
def Client.transformed (c : Client) (ok : Bool) (x : Choice) : Client × List Entry :=
  let a := c.dropHandshake                                                           -- 924
  let b := if a.1.request = 0 then (a.1, [.bad])
    else ({ a.1 with request := a.1.request + 1, handshake := true }, ([] : List Entry))   -- 925
  let r := if ok ∧ b.1.desired = .connected ∧ x.ok then ({ b.1 with net := .dialing }, [Entry.dialed])   -- 928-955
    else
      let d := b.1.dropHandshake                                                     -- 964-966
      (d.1.down x, d.2 ++ [.failed])
  let s := r.1.dropRequest                                                           -- 970
  let t := s.1.release                                                               -- 971
  (t.1, a.2 ++ b.2 ++ r.2 ++ s.2 ++ t.2)

/-- The next task of this turn. -/
def Client.run (ws : Bool) (c : Client) (x : Choice) : Client × List Entry :=
  match c.running with
  | [] =>
    if !c.due then (c, [])
    else if !c.alive then ({ c with due := false }, [.bad])
    else ({ c with due := false } : Client).service ws x
  | t :: rest =>
    let c := { c with running := rest }
    if !c.alive then (c, [.bad])
    else match t with
      | .change d => c.change d x
      | .use => let c := (if !x.ok ∧ c.phase = .live then { c with phase := .closing } else c).reevaluate x; c.release
      | .transformed ok => c.transformed ok x

/-- Steps. -/
inductive Event where
  | acquire
  | release
  /-- `aws_mqtt5_client_start` and `aws_mqtt5_client_stop` (2284-2323). -/
  | change (connect : Bool)
  | use
  /-- The user completes the transformation: `s_websocket_handshake_transform_complete` (976-995). -/
  | answer (ok : Bool)
  /-- The next turn of the event loop; `due`: the time of the service task has come. -/
  | turn (due : Bool)
  | run (x : Choice)
  /-- A connection is there; `spoiled`: it is a websocket that cannot be used (889-898). -/
  | opened (spoiled : Bool) (x : Choice)
  | failed (x : Choice)
  | closed (x : Choice)
  /-- Data are read or were written. -/
  | io (x : Choice)
deriving Repr

def Enabled (ws : Bool) (c : Client) : Event → Prop
  | .acquire | .release | .change _ | .use => 0 < c.user
  | .answer _ => c.owed = true
  | .turn _ => c.running = [] ∧ c.due = false
  | .opened spoiled _ => c.net = .dialing ∧ (spoiled = true → ws = true)
  | .failed _ => c.net = .dialing ∨ c.net = .spoiled
  | .closed _ | .io _ => c.net = .up
  | .run _ => True

instance (ws : Bool) (c : Client) (e : Event) : Decidable (Enabled ws c e) := by
  cases e <;> simp only [Enabled] <;> infer_instance

/-- A call that schedules a task, with a reference (2220-2239, 2383-2399, 2590-2607). -/
def Client.schedule (c : Client) (t : Task) : Client × List Entry :=
  let a := c.acquire
  ({ a.1 with asap := a.1.asap ++ [t] }, a.2)

def step (ws : Bool) (c : Client) : Event → Client × List Entry
  | .acquire => if !c.alive then (c, [.bad]) else
    let a := c.acquire; ({ a.1 with user := a.1.user + 1 }, .acquired :: a.2)
  | .release => if !c.alive then (c, [.bad]) else
    let a := c.release; ({ a.1 with user := a.1.user - 1 }, .released :: a.2)
  | .change b => if !c.alive then (c, [.bad]) else c.schedule (.change (if b then .connected else .stopped))
  | .use => if !c.alive then (c, [.bad]) else c.schedule .use
  | .answer ok => if !c.alive then (c, [.bad]) else
    let a := ({ c with owed := false } : Client).schedule (.transformed ok); (a.1, .answered :: a.2)
  | .turn due =>
    ({ c with running := c.asap, asap := [], due := c.timed && due, timed := c.timed && !due }, [])
  | .run x => c.run ws x
  | .opened spoiled x =>                                                             -- 874-904, 802-860
    if !c.alive then (c, [.bad])
    else
      let a := c.dropHandshake
      if spoiled then ({ a.1 with net := .spoiled }, a.2 ++ [.spoiled])
      else if a.1.phase ≠ .connecting then (a.1, a.2 ++ [.bad])                      -- 820
      else (({ a.1 with net := .up, phase := if a.1.desired = .connected ∧ x.ok then .live else .closing } : Client).reevaluate x,
        a.2 ++ [.opened])
  | .failed x =>
    if !c.alive then (c, [.bad])
    else
      let a := c.dropHandshake
      (({ a.1 with net := .none } : Client).down x, a.2 ++ [.failed])
  | .closed x => if !c.alive then (c, [.bad]) else (({ c with net := .none } : Client).down x, [.closed])
  | .io x => if !c.alive then (c, [.bad]) else
    ((if !x.ok ∧ c.phase = .live then { c with phase := .closing } else c).reevaluate x, [])

/-- What can come about, and what has been seen. -/
inductive Reachable (ws : Bool) : Client → List Entry → Prop
  | init : Reachable ws {} []
  | step {c : Client} {log : List Entry} (h : Reachable ws c log) (e : Event) (he : Enabled ws c e) :
      Reachable ws (step ws c e).1 (log ++ (step ws c e).2)

end Mqtt.Life5
