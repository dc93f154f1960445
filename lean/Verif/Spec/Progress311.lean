import Verif.Client311

/-! How a 3.1.1 connection gets on without its user. -/
namespace Mqtt.Client311

/-- Calls of the user, for which a reference to the connection is needed. -/
def Event.isCall : Event → Bool
  | .create .. => true
  | .connect _ => true
  | .disconnect => true
  | .acquire => true
  | .release => true
  | _ => false

/-- What the event loop, or the thread that is in `connect`, does next by itself: the steps of `connect` and
`s_mqtt_client_shutdown`, the callbacks of the bootstrap, the reconnect task, the disconnect task, cancelled tasks, and
the beginning of the end of a channel (such as that there is no CONNACK in time). -/
def Event.moves (c : Conn) : Event → Bool
  | .advance => true
  | .launch _ => true
  | .setup _ => true
  | .attempt _ => true
  | .disconnectTask => true
  | .shutdown => true
  | .cancel _ => true
  | .close => !c.closing
  | _ => false

/-- New requests: those of the user, and pings. -/
def Event.isNew : Event → Bool
  | .create .. => true
  | .ping => true
  | _ => false

/-- Histories without a fault that go on from a connection: the events, and how many of them moved it. -/
inductive Run (c : Conn) : List Event → Nat → Conn → Prop where
  | nil : Run c [] 0 c
  | snoc {es : List Event} {n : Nat} {d d' : Conn} {e : Event} : Run c es n d → d.destroyed = false →
    Enabled d e = true → step d e = .ok d' → Run c (es ++ [e]) (if e.moves d then n + 1 else n) d'

/-- Requests the connection has: waiting for a connection, for an acknowledgement or in a task, or being cancelled. -/
def Conn.load (c : Conn) : Nat :=
  c.pending.length + c.ongoing.length + c.tasks.length +
    match c.busy with
    | .cancelling _ todo _ => todo.length
    | _ => 0

/-- More than what a connection needs: ten moves, and two for each request it had or got. -/
def Conn.enough (c : Conn) (es : List Event) : Nat := 10 + 2 * c.load + 2 * es.countP Event.isNew

end Mqtt.Client311
