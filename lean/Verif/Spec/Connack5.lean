import Verif.Timing5
import Verif.Options5

/-!
How long the MQTT 5 client waits for a CONNACK.
-/
namespace Mqtt.Client5

open Mqtt.V5

/-- A client that waits for the CONNACK of a connection that was set up between the times `b` and `b'`. -/
inductive Awaits (cfg : Config) (late : Nat) : Nat → Nat → Clocked → Prop where
  | setup {x y : Clocked} {b now : Nat} : Timed cfg late x → Timed.Step cfg late x b (.setup none now) y →
      y.client.ctl.state = .mqttConnect → Awaits cfg late b y.clock y
  | step {x y : Clocked} {b b' t : Nat} {e : Event} : Awaits cfg late b b' x → Timed.Step cfg late x t e y →
      (∀ now, e ≠ .setup none now) → y.client.ctl.state = .mqttConnect → Awaits cfg late b b' y

theorem Awaits.timed {cfg : Config} {late b b' : Nat} {x : Clocked} (h : Awaits cfg late b b' x) : Timed cfg late x := by
  induction h with
  | setup hx hs _ => exact .step hx hs
  | step _ hs _ _ ih => exact .step ih hs

/-- The documented CONNACK timeout (mqtt5_client.h:630-634), in nanoseconds. -/
def connackWait (o : Options5.Options) : Nat :=
  (if o.connackTimeoutMs = 0 then 20000 else o.connackTimeoutMs) * 1000000

end Mqtt.Client5
