import Verif.Client311
import Verif.Listener311

/-! What listeners of a 3.1.1 connection are to be told. -/
namespace Mqtt.Client311

/-- The handler for what the callbacks of the connection tell: a message, a connection that is established for the first time or
again, an interruption, a disconnect. -/
def notice : Trace → Option Listener311.Kind
  | .processed _ (.publish _ _) => some .publish
  | .connectionComplete true => some .success
  | .resumed => some .success
  | .interrupted => some .interrupted
  | .disconnected => some .disconnect
  | _ => none

def notices (log : List Trace) : List Listener311.Kind := log.filterMap notice

/-- Whether there is a connection, for who is told this. -/
def online (l : List Listener311.Kind) : Bool :=
  l.foldl (fun up k => match k with
    | .success => true
    | .interrupted => false
    | .disconnect => false
    | .publish => up) false

/-- The reconnect task runs after disconnect() was called: the connection waited to reconnect. -/
def Event.atRest (c : Conn) : Event → Bool
  | .attempt _ => c.state = .disconnecting ∧ c.slot = false
  | _ => false

end Mqtt.Client311
