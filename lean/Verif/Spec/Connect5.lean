import Verif.Client5

/-!
How the MQTT 5 client connects, as its user sees it.
-/
namespace Mqtt.Client5

open Mqtt.V5

def joinedOne (b : Bool) : LEvent → Bool
  | .success => true
  | .stopped => false
  | _ => b

/-- Has the client connected since it was last stopped? -/
def joined (events : List LEvent) : Bool := events.foldl joinedOne false

/-- A client some events later. -/
inductive Later (cfg : Config) (c : Client) : Client → Prop where
  | refl : Later cfg c c
  | step {c1 c2 : Client} {e : Event} : Later cfg c c1 → Enabled c1 e → step cfg c1 e = .ok c2 → Later cfg c c2

end Mqtt.Client5
