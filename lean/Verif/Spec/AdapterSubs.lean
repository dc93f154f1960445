import Verif.Spec.Adapter
import Verif.Props.C13

/-!
What the operations that the adapter accepts ask of its subscriptions. `SetOp`, `setMapRun` and `setInserted` are those
of C13: adding and removing filters, the map from filters to handlers that this leads to, and the user data to be
cleaned up.
-/
namespace Mqtt.Adapter
open Mqtt.SubscriptionSet Mqtt.Props

/-- The operation that a note says is accepted. -/
def Note.kind? : Note → Option Kind
  | .accepted _ _ k => some k
  | _ => none

/-- The operations accepted, in their order. -/
def kinds (l : List Note) : List Kind := l.filterMap Note.kind?

/-- What an operation asks of the set of subscriptions. A resubscribe asks for nothing new. -/
def Kind.asksSet : Kind → List SetOp
  | .subscribe rs _ _ => rs.map fun r => .add r.filter r.entry
  | .unsubscribe f _ => [.remove f]
  | _ => []

def Task.submits? : Task → Option Nat
  | .submit id => some id
  | _ => none

/-- The operations to be submitted. -/
def submits (l : List Task) : List Nat := l.filterMap Task.submits?

/-- The handlers that a set of subscriptions calls. -/
def handlersFor (set : SubSet) (topic : Bytes) : List (Nat × Option Nat) :=
  (SubscriptionSet.publish set topic).map fun c => c.2

end Mqtt.Adapter
