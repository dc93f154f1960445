import Verif.Basic

/-!
A least-recently-used set of topics.
-/
namespace Mqtt.Spec

/-- Topics, the one used last first. -/
def byUse (ts : List Bytes) : List Bytes := ts.foldl (fun l t => t :: l.filter (· ≠ t)) []

end Mqtt.Spec
