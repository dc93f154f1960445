import Verif.ManualAck5

/-!
What the user of manual acknowledgements sees: how a control stands, going by what has happened so far, and what the
callback of an invocation has been called with.
-/
namespace Mqtt.ManualAck5

open Mqtt.Client5

/-- How a control stands. -/
inductive Standing where
  /-- Never given out, or invoked since. -/
  | unknown
  /-- Given out for a publish with this packet identifier, on the present connection. -/
  | held (id : Nat)
  /-- Given out on a connection that has ended since. -/
  | cut
deriving DecidableEq, Repr

def stand (ctl : Nat) (s : Standing) : Effect → Standing
  | .delivered v (some k) => if k = ctl then .held v.packetId else s
  | .invoked k _ => if k = ctl then .unknown else s
  | .disconnected => match s with
    | .held _ => .cut
    | s => s
  | _ => s

def standing (ctl : Nat) (log : List Effect) : Standing := log.foldl (stand ctl) .unknown

/-- What the callback of invocation `n` has been called with. -/
def answersOf (n : Nat) (b : Book) : List Result := (b.answers.filter (·.1 == n)).map (·.2)

/-- What an invocation is told at once. -/
def told : Standing → List Result
  | .held _ => []
  | .cut => [.cancelled]
  | .unknown => [.invalid]

end Mqtt.ManualAck5
