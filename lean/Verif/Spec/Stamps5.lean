import Verif.Timing5
import Verif.Spec.Client5

/-!
What an observer with a clock can work out from the effects of the MQTT 5 client.
-/
namespace Mqtt.Client5

open Mqtt.V5

/-- An effect, the event of which it is part, and the times at which that event began and ended. -/
structure Stamp where
  effect : Effect
  event : Event
  start : Nat
  stop : Nat

/-- Histories with the effects stamped. -/
inductive Stamped (cfg : Config) (late : Nat) : Clocked → List Stamp → Prop where
  | new (t : Nat) : 0 < t → Stamped cfg late ⟨Client.new cfg, t, 0⟩ []
  | step {x y : Clocked} {t : Nat} {e : Event} {l : List Stamp} {new : List Effect} : Stamped cfg late x l →
      Timed.Step cfg late x t e y → y.client.ops.log = x.client.ops.log ++ new →
      Stamped cfg late y (l ++ new.map fun f => ⟨f, e, t, y.clock⟩)

def sentOne (u : Nat) (r : Option (Nat × Nat)) (m : Stamp) : Option (Nat × Nat) :=
  match m.effect with
  | .encoded v p => if v = u ∧ requiresAck p then some (m.start, m.stop) else r
  | .disconnected => none
  | _ => r

/-- Between which times the operation was last sent and is to be acknowledged, unless the connection has ended since. -/
def sentAt (u : Nat) (l : List Stamp) : Option (Nat × Nat) := l.foldl (sentOne u) none

/-- The operation was submitted with this ack timeout, in seconds. -/
def Asked (l : List Stamp) (u s : Nat) : Prop :=
  ∃ m ∈ l, ∃ p q x, m.effect = .submitted u q ∧ m.event = .submit p s x

/-- When an operation sent at time `t` times out; it does not with a timeout of 0 seconds on its own and in the
configuration. The timeouts are 32 bits wide, so that the first `min` is of no effect. -/
def timesOutAt (cfg : Config) (s t : Nat) : Option Nat :=
  let s := if s = 0 then cfg.ackTimeoutSeconds else s
  if s = 0 then none else some (t + min (s * 1000000000) 18446744073709551615)

/-- At some time two operations in flight had the same packet id. -/
def Shares (log : List Effect) : Prop :=
  ∃ l l', log = l ++ l' ∧ ¬(inFlight l).Pairwise fun a b => packetId a.2 ≠ packetId b.2

end Mqtt.Client5
