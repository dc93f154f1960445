import Verif.Props.C30
import Verif.Props.C55

/-!
C58: which events make the MQTT 5 client abort or run into undefined behaviour.
-/
namespace Mqtt.Props
open Mqtt.Client5 Mqtt.V5

/-- **C58, partial**: on every history, an event aborts or runs into undefined behaviour only for one of the reasons
listed in `Cause`: flow control after an operation failed the check against the negotiated settings, a DISCONNECT
from the server before the connection is established, a SUBACK or UNSUBACK for an operation of another kind. No other
fatal assert fails, and no operation is used after it has been completed. -/
theorem C58_partial {cfg : Config} {c : Client} {e : Event} {f : Fault} (h : Reachable cfg c) (he : Enabled c e)
    (hf : Client5.step cfg c e = .error f) : Cause cfg c e f := step_fault h he hf

/-- A client that never sees those goes through every history. -/
theorem C58_safe_partial {cfg : Config} {c : Client} {e : Event} (h : Reachable cfg c) (he : Enabled c e)
    (hc : ∀ f, ¬Cause cfg c e f) : ∃ c', Client5.step cfg c e = .ok c' := by
  cases hs : Client5.step cfg c e with
  | ok c' => exact ⟨c', rfl⟩
  | error f => exact absurd (step_fault h he hs) (hc f)

/-- The second cause is always fatal. -/
theorem C58_disconnect {cfg : Config} {c : Client} {v : DisconnectView} {acquire : Bool} {now : Nat}
    (hs : c.ctl.state = .cleanDisconnect) (hl : c.ctl.lifecycle = .connecting) :
    Client5.step cfg c (.packet (.disconnect v) acquire now) = .error .abort := by
  simp [Client5.step, Client.onPacket, hs, Client.onPacketConnected, Control.emitFinalDisconnect, hl]

/-- **C58 does not hold**: the user stops the client with a DISCONNECT while it waits for the CONNACK, and the server
sends a DISCONNECT. -/
theorem C58_violated_disconnect : ∃ cfg c v acquire now, Reachable cfg c ∧ Enabled c (.packet (.disconnect v) acquire now) ∧
    Client5.step cfg c (.packet (.disconnect v) acquire now) = .error .abort := by
  have h : (run {} (Client.new {}) [.setDesired .connected none, .service {}, .setup none 1, .service {},
      .writeComplete .success, .setDesired .stopped (some {})]).test
      (fun c => c.ctl.slot && decide (c.ctl.state = .cleanDisconnect) && decide (c.ctl.lifecycle = .connecting)) =
        true := by decide +kernel
  obtain ⟨c, hr, hc⟩ := run_test h
  simp only [Bool.and_eq_true, decide_eq_true_eq] at hc
  exact ⟨{}, c, {}, false, 1, hr, ⟨hc.1.1, rfl⟩, C58_disconnect hc.1.2 hc.2⟩

/-- Not vacuous: there is a state in which no cause applies to running the service task. -/
example : ∃ c, Reachable {} c ∧ c.ctl.state = .connected ∧ c.ops.queued.length = 2 ∧
    ∀ f, ¬Cause {} c (.service {}) f := by
  have h : (run {} (Client.new {}) (connectWith {} ++ [.submit (publishTo [97] 1) 0 false,
      .submit (publishTo [98] 1) 0 false])).test (fun c => decide (c.ctl.state = .connected) &&
        decide (c.ops.queued.length = 2) && !refused c.ops.log && decide (c.invalid {} .pingreq = none) &&
        c.ops.queued.all (fun op => decide (c.invalid {} op.packet = none))) = true := by decide +kernel
  obtain ⟨c, hr, hc⟩ := run_test h
  simp only [Bool.and_eq_true, decide_eq_true_eq, List.all_eq_true, Bool.not_eq_true'] at hc
  refine ⟨c, hr, hc.1.1.1.1, hc.1.1.1.2, ?_⟩
  intro f hf
  cases hf with
  | flow env hst hx =>
    rcases hx with hx | hx | ⟨op, ho, hx⟩
    · rw [hc.1.1.2] at hx; cases hx
    · exact hx hc.1.2
    · exact hx (hc.2 op ho)

end Mqtt.Props
