/-!
Listeners of an MQTT 3.1.1 connection (/repo/source/mqtt311_listener.c, line numbers below unless another file is named).

Listeners are numbered in the order of their creation. Structures that are freed are taken out of their list, and a use of one
that is gone is the entry `invalid` in the log. The connection is a reference count (client.c:3643-3654); it holds a reference
of itself from connect() until it is disconnected (client.c:1882, 467, 767), and events come from the connection only between
them, on its event loop. Handlers may call anything: while an event is passed on, all calls of users are possible between two
handlers, but no task is run, as the event loop has one thread. Tasks are run in the order they were scheduled. The initialize
and the terminate task are not cancelled: the connection of a listener keeps the event loop alive. Callback set ids
(`uint64_t`) do not wrap. Memory can be allocated.
-/
namespace Mqtt.Listener311

/-- The handlers of `struct aws_mqtt311_callback_set`. -/
inductive Kind where
  | publish
  | success
  | interrupted
  | disconnect
deriving DecidableEq, Repr

/-- An event, with its arguments. -/
structure Ev where
  kind : Kind
  data : Nat
deriving DecidableEq, Repr

/-- `struct aws_mqtt311_callback_set_entry` (140-148); `num` is the listener that is `user_data`. -/
structure SetEntry where
  id : Nat
  num : Nat
  handles : List Kind
deriving DecidableEq, Repr

/-- `struct aws_mqtt311_listener` (25-36). -/
structure Listener where
  num : Nat
  refs : Nat
  /-- References that users hold. -/
  held : Nat
  setId : Nat := 0
  handles : List Kind
deriving DecidableEq, Repr

inductive Task where
  | initialize (num : Nat)
  | terminate (num : Nat)
deriving DecidableEq, Repr

inductive Entry where
  /-- aws_mqtt311_listener_new() with these handlers. -/
  | created (num : Nat) (handles : List Kind)
  | acquired (num : Nat)
  | released (num : Nat)
  /-- The initialize task was run. -/
  | attached (num : Nat)
  /-- The termination callback. -/
  | terminated (num : Nat)
  /-- The connection has an event. -/
  | event (e : Ev)
  /-- A handler is called. -/
  | called (num : Nat) (e : Ev)
  /-- All handlers for the event were called. -/
  | finished
  | connAcquired
  | connReleased
  /-- connect(). -/
  | connect
  /-- The connection is disconnected, or its connection attempt failed. -/
  | offline
  /-- The last reference of the connection was released. -/
  | gone
  /-- Freed memory was used. -/
  | invalid
deriving DecidableEq, Repr

structure Conn where
  refs : Nat := 1
  /-- References of the connection that users hold. -/
  held : Nat := 1
  /-- References of the connection that it holds itself. -/
  own : Nat := 0
  entries : List SetEntry := []
  nextId : Nat := 1
  listeners : List Listener := []
  /-- The tasks of the event loop. -/
  queue : List Task := []
  /-- The event that is passed on, and the entries that are to come. -/
  firing : Option (Ev × List SetEntry) := none
  nextNum : Nat := 0

def Conn.find (c : Conn) (num : Nat) : Option Listener := c.listeners.find? (·.num = num)

def Conn.modify (c : Conn) (num : Nat) (f : Listener → Listener) : Conn :=
  { c with listeners := c.listeners.map fun l => if l.num = num then f l else l }

/-- `s_aws_mqtt_client_connection_311_release` (client.c:3650-3654). -/
def Conn.releaseConn (c : Conn) : Conn × List Entry :=
  ({ c with refs := c.refs - 1 }, if c.refs = 0 then [.invalid] else if c.refs = 1 then [.gone] else [])

/-- `s_mqtt311_listener_destroy` (38-50). -/
def Conn.destroy (c : Conn) (num : Nat) : Conn × List Entry :=
  let x := c.releaseConn
  ({ x.1 with listeners := x.1.listeners.filter (·.num ≠ num) }, x.2 ++ [.terminated num])

/-- `aws_mqtt311_listener_release` (132-138) with `s_aws_mqtt311_listener_on_zero_ref_count` (90-95). -/
def Conn.release (c : Conn) (num : Nat) : Conn × List Entry :=
  match c.find num with
  | none => (c, [.invalid])
  | some l =>
    let c := c.modify num fun l => { l with refs := l.refs - 1 }
    if l.refs = 0 then (c, [.invalid])
    else if l.refs = 1 then ({ c with queue := c.queue ++ [.terminate num] }, [])
    else (c, [])

/-- `aws_mqtt311_callback_set_manager_remove` (206-236). -/
def removeEntry (id : Nat) : List SetEntry → List SetEntry
  | [] => []
  | e :: es => if e.id = id then es else e :: removeEntry id es

/-- `s_mqtt311_listener_initialize_task_fn` (52-71) and `s_mqtt311_listener_terminate_task_fn` (73-88). -/
def Conn.runTask (c : Conn) : Task → Conn × List Entry
  | .initialize num => match c.find num with
    | none => (c, [.invalid])
    | some l =>
      let c' := { c with
        entries := { id := c.nextId, num, handles := l.handles } :: c.entries                     -- 190-204, 170-188
        nextId := c.nextId + 1 }.modify num fun l => { l with setId := c.nextId }
      let x := c'.release num
      (x.1, .attached num :: x.2)
  | .terminate num => match c.find num with
    | none => (c, [.invalid])
    | some l => { c with entries := removeEntry l.setId c.entries }.destroy num

inductive Event where
  | new (handles : List Kind)
  | acquire (num : Nat)
  | release (num : Nat)
  | acquireConn
  | releaseConn
  | connect
  | offline
  /-- The event loop runs the next task. -/
  | run
  /-- The connection has an event. -/
  | fire (e : Ev)
  /-- The event goes to the next callback set, or there is none left. -/
  | next
deriving DecidableEq, Repr

def Enabled (c : Conn) : Event → Prop
  | .new _ => 0 < c.held
  | .acquire num => ∃ l ∈ c.listeners, l.num = num ∧ 0 < l.held
  | .release num => ∃ l ∈ c.listeners, l.num = num ∧ 0 < l.held
  | .acquireConn => 0 < c.held
  | .releaseConn => 0 < c.held
  | .connect => 0 < c.held
  | .offline => 0 < c.own ∧ c.firing = none
  | .run => c.queue ≠ [] ∧ c.firing = none
  | .fire _ => 0 < c.own ∧ c.firing = none
  | .next => c.firing ≠ none

def step (c : Conn) : Event → Conn × List Entry
  | .new handles =>                                                                               -- 97-122
    ({ c with
        refs := c.refs + 1
        listeners := c.listeners ++ [{ num := c.nextNum, refs := 2, held := 1, handles }]
        queue := c.queue ++ [.initialize c.nextNum]
        nextNum := c.nextNum + 1 }, [.created c.nextNum handles])
  | .acquire num => (c.modify num fun l => { l with refs := l.refs + 1, held := l.held + 1 }, [.acquired num])   -- 124-130
  | .release num =>
    let x := (c.modify num fun l => { l with held := l.held - 1 }).release num
    (x.1, .released num :: x.2)
  | .acquireConn => ({ c with refs := c.refs + 1, held := c.held + 1 }, [.connAcquired])
  | .releaseConn =>
    let x := { c with held := c.held - 1 }.releaseConn
    (x.1, .connReleased :: x.2)
  | .connect => ({ c with refs := c.refs + 1, own := c.own + 1 }, [.connect])
  | .offline =>
    let x := { c with own := c.own - 1 }.releaseConn
    (x.1, .offline :: x.2)
  | .run => match c.queue with
    | [] => (c, [])
    | t :: q => { c with queue := q }.runTask t
  | .fire e => ({ c with firing := some (e, c.entries) }, [.event e])
  | .next => match c.firing with                                                                  -- 238-329
    | none => (c, [])
    | some (_, []) => ({ c with firing := none }, [.finished])
    | some (e, s :: rest) => ({ c with firing := some (e, rest) }, if e.kind ∈ s.handles then [.called s.num e] else [])

inductive Reachable : Conn → List Entry → Prop where
  | init : Reachable {} []
  | step {c : Conn} {log : List Entry} (e : Event) : Reachable c log → Enabled c e → Reachable (step c e).1 (log ++ (step c e).2)

end Mqtt.Listener311
