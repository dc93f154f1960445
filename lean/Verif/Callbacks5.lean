import Verif.Basic

/-!
The MQTT 5 callback manager (source/v5/mqtt5_callbacks.c) and listeners
(source/v5/mqtt5_listener.c).

A handler is an arbitrary function of a world `σ` (what user code can see and change) and its
argument; `none` is a NULL handler.  Handlers run on the client's event loop and cannot change the
list they are called from: attaching and detaching only happen in tasks of that event loop
(mqtt5_listener.c:40-75), and both functions abort on any other thread (mqtt5_callbacks.c:68, 79).
Every call made is recorded in a trace.
-/
namespace Mqtt.Callbacks5

/-- `struct aws_mqtt5_callback_set` (include/aws/mqtt/v5/mqtt5_client.h), with publishes `P` and
lifecycle events `E`; the user data pointers are part of the functions. -/
structure CallbackSet (σ P E : Type) where
  publish : Option (σ → P → σ × Bool)
  lifecycle : Option (σ → E → σ)

/-- The client's own handlers (`client->config`). -/
structure ClientHandlers (σ P E : Type) where
  publish : Option (σ → P → σ)
  lifecycle : Option (σ → E → σ)

/-- `struct aws_mqtt5_callback_set_entry` (14-22). -/
structure Entry (σ P E : Type) where
  id : Nat
  callbacks : CallbackSet σ P E

/-- `struct aws_mqtt5_callback_set_manager`. -/
structure Manager (σ P E : Type) where
  entries : List (Entry σ P E)
  nextId : Nat

/-- `aws_mqtt5_callback_set_manager_init` (24-32). -/
def Manager.init {σ P E} : Manager σ P E := ⟨[], 1⟩

/-- `aws_mqtt5_callback_set_manager_push_front` (64-75) with `s_new_callback_set_entry` (45-62);
the counter is a `uint64_t`. -/
def Manager.pushFront {σ P E} (m : Manager σ P E) (c : CallbackSet σ P E) : Manager σ P E × Nat :=
  (⟨⟨m.nextId, c⟩ :: m.entries, (m.nextId + 1) % 18446744073709551616⟩, m.nextId)

/-- The loop of `aws_mqtt5_callback_set_manager_remove` (81-97): the first entry with that id. -/
def removeEntry {σ P E} (id : Nat) : List (Entry σ P E) → List (Entry σ P E)
  | [] => []
  | e :: rest => if e.id = id then rest else e :: removeEntry id rest

/-- `aws_mqtt5_callback_set_manager_remove` (77-103). -/
def Manager.remove {σ P E} (m : Manager σ P E) (id : Nat) : Manager σ P E :=
  { m with entries := removeEntry id m.entries }

/-- Who was called. -/
inductive Callee
  | listener (id : Nat)
  | client
deriving DecidableEq, Repr

/-- `aws_mqtt5_callback_set_manager_on_publish_received` (105-130): the world afterwards and the
calls made, in order. -/
def offer {σ P E} (h : ClientHandlers σ P E) (p : P) :
    List (Entry σ P E) → σ → σ × List Callee
  | [], w =>
    match h.publish with
    | some f => (f w p, [.client])
    | none => (w, [])
  | e :: rest, w =>
    match e.callbacks.publish with
    | some f =>
      let r := f w p
      if r.2 then (r.1, [.listener e.id])
      else
        let t := offer h p rest r.1
        (t.1, .listener e.id :: t.2)
    | none => offer h p rest w

def Manager.onPublish {σ P E} (m : Manager σ P E) (h : ClientHandlers σ P E) (w : σ) (p : P) :
    σ × List Callee := offer h p m.entries w

/-- `aws_mqtt5_callback_set_manager_on_lifecycle_event` (132-159). -/
def announce {σ P E} (h : ClientHandlers σ P E) (ev : E) :
    List (Entry σ P E) → σ → σ × List Callee
  | [], w =>
    match h.lifecycle with
    | some f => (f w ev, [.client])
    | none => (w, [])
  | e :: rest, w =>
    match e.callbacks.lifecycle with
    | some f =>
      let t := announce h ev rest (f w ev)
      (t.1, .listener e.id :: t.2)
    | none => announce h ev rest w

def Manager.onLifecycle {σ P E} (m : Manager σ P E) (h : ClientHandlers σ P E) (w : σ) (ev : E) :
    σ × List Callee := announce h ev m.entries w

/-! ### Listeners (source/v5/mqtt5_listener.c) -/

/-- `struct aws_mqtt5_listener` (13-24).  `alive` is false once `s_mqtt5_listener_destroy` has freed
it. -/
structure Listener (σ P E : Type) where
  refs : Nat
  callbacks : CallbackSet σ P E
  setId : Nat := 0
  alive : Bool := true

/-- The two tasks a listener schedules on the client's event loop. -/
inductive Task
  | initialize (i : Nat)
  | terminate (i : Nat)
deriving DecidableEq, Repr

/-- The event loop's queue of tasks to run now, the manager, all listeners ever created (by creation
order), and the termination callbacks invoked so far. -/
structure World (σ P E : Type) where
  manager : Manager σ P E := Manager.init
  listeners : List (Listener σ P E) := []
  queue : List Task := []
  terminated : List Nat := []

/-- `aws_mqtt5_listener_new` (82-106), non-NULL client: one reference for the caller, one for the
initialize task. -/
def World.new {σ P E} (w : World σ P E) (c : CallbackSet σ P E) : World σ P E :=
  { w with
    listeners := w.listeners ++ [{ refs := 2, callbacks := c }]
    queue := w.queue ++ [.initialize w.listeners.length] }

def World.modify {σ P E} (w : World σ P E) (i : Nat) (f : Listener σ P E → Listener σ P E) :
    World σ P E :=
  { w with listeners := w.listeners.modify i f }

/-- `aws_mqtt5_listener_acquire` (108-114). -/
def World.acquire {σ P E} (w : World σ P E) (i : Nat) : World σ P E :=
  w.modify i fun l => { l with refs := l.refs + 1 }

/-- `aws_mqtt5_listener_release` (116-122): the last reference schedules the terminate task
(76-80). -/
def World.release {σ P E} (w : World σ P E) (i : Nat) : World σ P E :=
  match w.listeners[i]? with
  | none => w
  | some l =>
    let w := w.modify i fun l => { l with refs := l.refs - 1 }
    if l.refs = 1 then { w with queue := w.queue ++ [.terminate i] } else w

/-- The event loop runs the next task: `s_mqtt5_listener_initialize_task_fn` (39-57),
`s_mqtt5_listener_terminate_task_fn` (59-74) with `s_mqtt5_listener_destroy` (26-37); task status
RUN_READY. -/
def World.runTask {σ P E} (w : World σ P E) : World σ P E :=
  match w.queue with
  | [] => w
  | .initialize i :: rest =>
    match w.listeners[i]? with
    | none => { w with queue := rest }
    | some l =>
      let r := w.manager.pushFront l.callbacks
      let w := { w with queue := rest, manager := r.1 }
      (w.modify i fun l => { l with setId := r.2 }).release i
  | .terminate i :: rest =>
    match w.listeners[i]? with
    | none => { w with queue := rest }
    | some l =>
      let w := { w with queue := rest, manager := w.manager.remove l.setId }
      { w.modify i fun l => { l with alive := false } with terminated := w.terminated ++ [i] }

end Mqtt.Callbacks5
