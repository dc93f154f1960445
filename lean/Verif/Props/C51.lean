import Verif.Lemmas.Client311Link

/-!
C51: 3.1.1 client: each connect() gets exactly one completion callback.

Violated: `s_mqtt_client_init` invokes the callback when CONNECT cannot be sent and then shuts the channel down, which
invokes it again (or, on a reconnect, starts the next attempt); and a second CONNACK on a connection invokes it again.
-/
namespace Mqtt.Props
open Mqtt.Client311

variable {allowed : Conn → Event → Prop} {c : Conn}

/-- CONNECT cannot be sent, or an established connection gets another CONNACK. -/
def C51_excluded (c : Conn) (e : Event) : Prop :=
  (e = .setup .unsent ∧ c.state ≠ .disconnecting) ∨ (e = .packet (.connack true) ∧ c.state = .connected)

/-- Without these, the callback has been invoked once for each connect that was accepted; the only exception is the last
one while the connection is being established. -/
theorem C51_partial (h : Client311.Reachable allowed c) (ha : ∀ c e, allowed c e → ¬ C51_excluded c e) :
    connects c.log = answers c.log + (if c.state = .connecting ∧ c.busy.inConnect = false then 1 else 0) := by
  refine h.linked fun c e hc ht => ha c e hc ?_
  unfold Event.twice at ht
  split at ht
  · exact .inl ⟨rfl, by rcases ht with e | e <;> rw [e] <;> simp⟩
  · exact .inr ⟨rfl, ht⟩
  · exact ht.elim

/-- The next connect is accepted only if each has been answered. -/
theorem C51_partial_next (h : Client311.Reachable allowed c) (ha : ∀ c e, allowed c e → ¬ C51_excluded c e) {clean : Bool}
    {c' : Conn} (hs : Client311.step c (.connect clean) = .ok c') (hc : c'.log ≠ c.log ++ [.connectRefused]) :
    connects c.log = answers c.log := by
  have := C51_partial h ha
  rw [if_neg ?_] at this
  · exact this
  · rintro ⟨e, _⟩
    apply hc
    cases hs
    simp [Conn.connect, e, Conn.tell]

/-- CONNECT cannot be sent: two callbacks for one connect. -/
theorem C51_violated : ∃ c, Client311.Reachable (fun _ _ => True) c ∧ connects c.log = 1 ∧ answers c.log = 2 :=
  ⟨after [.connect false, .advance, .launch true, .setup .unsent, .shutdown, .advance], reachable_after _, by decide +kernel,
    by decide +kernel⟩

/-- The server sends two CONNACKs: two callbacks for one connect. -/
theorem C51_violated_connack : ∃ c, Client311.Reachable (fun _ _ => True) c ∧ connects c.log = 1 ∧ answers c.log = 2 :=
  ⟨after [.connect false, .advance, .launch true, .setup .opened, .packet (.connack true), .packet (.connack true)],
    reachable_after _, by decide +kernel, by decide +kernel⟩

/-- A failed connect, a successful one, an interruption and a reconnect, a disconnect and a third connect. -/
def C51_history : List Event :=
  [.connect false, .advance, .launch true, .setup .failed, .advance,
   .connect false, .advance, .launch true, .setup .opened, .packet (.connack true), .close, .shutdown, .advance, .advance,
   .attempt true, .setup .opened, .packet (.connack true), .disconnect, .disconnectTask, .shutdown, .advance,
   .connect true, .advance, .launch true]

/-- The handshake of a websocket is refused by the user's validator: one callback. -/
example : (after [.connect false, .advance, .launch true, .setup .refused, .shutdown, .advance]).log =
    [.connecting, .connectionComplete false] := by decide +kernel

def C51_ok (c : Conn) (e : Event) : Bool :=
  !((e = .setup .unsent ∧ c.state ≠ .disconnecting) ∨ (e = .packet (.connack true) ∧ c.state = .connected))

example : connects (playIf C51_ok {} C51_history).log = 3 ∧ answers (playIf C51_ok {} C51_history).log = 2 := by
  decide +kernel

example : ∀ c e, C51_ok c e = true → ¬ C51_excluded c e := by
  intro c e h
  unfold C51_excluded
  simpa only [C51_ok, Bool.not_eq_true', decide_eq_false_iff_not] using h

end Mqtt.Props
