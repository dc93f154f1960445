import Verif.Client311

/-!
The DISCONNECT packet of a 3.1.1 connection: `s_shutdown` of its channel handler
(/repo/source/client_channel_handler.c:637-687), beside the connection of `Verif/Client311.lean`. There `shutdown` is all that happens
from the first shutdown of a handler to `s_mqtt_client_shutdown`. Here the write direction of the MQTT handler is shut down in a step of
its own, and tasks may run between it and the end. Tasks scheduled on the event loop run in the order in which they were scheduled.
`mqtt_create_request` on another thread is two steps: it schedules its task (ch 1005) after the lock has been released (ch 996).
Nothing is read once the read direction has been shut down, which the channel does before the write direction. DISCONNECT can be encoded
and given to the next handler (ch 658-683).
-/
namespace Mqtt.Courtesy311

open Mqtt.Client311

/-- What is written to a channel. -/
inductive Item where
  | connect
  /-- A packet of a request, or the acknowledgement of a packet from the server. -/
  | packet
  | disconnect
deriving DecidableEq, Repr

structure World where
  conn : Conn := {}
  /-- Requests whose task has not been scheduled. -/
  late : List Nat := []
  /-- Requests whose task was scheduled before `s_mqtt_disconnect_task`. -/
  ahead : List Nat := []
  /-- The channel is shutting down; the first `aws_channel_shutdown` was without an error. -/
  cause : Option Bool := none
  /-- The write direction of the MQTT handler has been shut down. -/
  done : Bool := false
  /-- What has been written, and to which channel. -/
  wire : List (Nat × Item) := []
deriving DecidableEq, Repr

inductive Event where
  /-- An event of the connection. `create` is a call on the event loop, or one that is not interrupted; `close` is with an error. -/
  | base (e : Client311.Event)
  /-- An operation on another thread until it releases the lock (ch 887-996). -/
  | begin (kind : Kind) (size : Nat)
  /-- It schedules its task (ch 1005). -/
  | finish (uid : Nat)
  /-- The channel begins to shut down without an error and not because of the connection. -/
  | gone
  /-- `s_shutdown` for the write direction. -/
  | write
deriving DecidableEq, Repr

def onChan (c : Conn) (t : Nat × Nat) : Bool := some t.2 = c.chan

def Enabled (w : World) : Event → Bool
  | .base e => Client311.Enabled w.conn e && match e with
      | .run k _ => (w.conn.tasks[k]?).all fun t => !w.late.contains t.1
      | .cancel k => (w.conn.tasks[k]?).all fun t => !w.late.contains t.1
      | .packet _ => !w.done
      | .disconnectTask => w.conn.tasks.all fun t => !(onChan w.conn t && w.ahead.contains t.1)
      | .shutdown => !w.conn.slot || w.done
      | _ => true
  | .begin kind size => Client311.Enabled w.conn (.create kind size)
  | .finish uid => w.late.contains uid
  | .gone => Client311.Enabled w.conn .close
  | .write => w.conn.busy = .idle ∧ w.conn.slot ∧ w.conn.closing ∧ w.done = false

/-- `aws_channel_shutdown` is called without an error: by `s_mqtt_disconnect_task` (ch 1098), whose error code is 0 (client.c:2015), or
by `s_mqtt_client_init` before it installs the handler (client.c:537). -/
def noError (c : Conn) : Client311.Event → Bool
  | .disconnectTask => true
  | .setup .refused => false
  | .setup _ => c.state = .disconnecting
  | _ => false

def isOpened (n : Nat) (t : Trace) : Bool := t = .opened n

def isSent : Trace → Bool
  | .sent .. => true
  | _ => false

def isReplied : Trace → Bool
  | .replied _ => true
  | _ => false

/-- What an event writes. -/
def emitted (c c' : Conn) (e : Client311.Event) : List (Nat × Item) :=
  let news := c'.log.drop c.log.length
  match e with
  | .setup _ => if news.any (isOpened c.nextChan) then [(c.nextChan, .connect)] else []
  | .run k _ =>
    match c.tasks[k]? with
    | some t => if news.any isSent then [(t.2, .packet)] else []
    | none => []
  | .packet _ => if news.any isReplied then c.chan.toList.map (·, .packet) else []
  | _ => []

def advance (w : World) (c : Conn) (e : Client311.Event) : World :=
  { w with
    conn := c
    ahead := if w.conn.disconnectTask = false ∧ c.disconnectTask then
        (w.conn.tasks.map (·.1)).filter (fun u => !w.late.contains u) else w.ahead
    cause := if c.closing then (if w.conn.closing then w.cause else some (noError w.conn e)) else none
    done := if e = .shutdown then false else w.done
    wire := w.wire ++ emitted w.conn c e }

def step (w : World) : Event → Except Fault World
  | .base e =>
    match Client311.step w.conn e with
    | .error f => .error f
    | .ok c => .ok (advance w c e)
  | .begin kind size =>
    match Client311.step w.conn (.create kind size) with
    | .error f => .error f
    | .ok c => .ok { advance w c (.create kind size) with
        late := w.late ++ (if w.conn.state = .connected ∧ c.nextUid ≠ w.conn.nextUid then [w.conn.nextUid] else []) }
  | .finish uid => .ok { w with late := w.late.erase uid }
  | .gone =>
    match Client311.step w.conn .close with
    | .error f => .error f
    | .ok c => .ok { advance w c .close with cause := if w.conn.closing then w.cause else some true }
  | .write =>                                                                                     -- ch 646-680
    .ok { w with
      done := true
      wire := w.wire ++ (if w.cause = some true then w.conn.chan.toList.map (·, .disconnect) else []) }

/-- Histories without a fault; each event is allowed by `allowed`. -/
inductive Reachable (allowed : World → Event → Prop) : World → Prop where
  | init : Reachable allowed {}
  | step {w w' : World} {e : Event} : Reachable allowed w → w.conn.destroyed = false → Enabled w e = true → allowed w e →
    step w e = .ok w' → Reachable allowed w'

end Mqtt.Courtesy311
