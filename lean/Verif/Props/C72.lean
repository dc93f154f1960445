import Verif.Lemmas.Client311Life
import Verif.Props.C51

/-!
C72: 3.1.1 client: the callbacks that tell of the connection come in a fixed order and agree with its state.

Violated in the cases C51 is violated in: `on_connection_complete` comes out of order when a reconnect cannot send
CONNECT or an established connection gets another CONNACK.
-/
namespace Mqtt.Props
open Mqtt.Client311

variable {allowed : Conn → Event → Prop} {c : Conn}

theorem C72_told (h : Client311.Reachable allowed c) (ha : ∀ c e, allowed c e → ¬ C51_excluded c e) : Told c := by
  refine h.told fun c e hc ht => ha c e hc ?_
  unfold Event.twice at ht
  split at ht
  · exact .inl ⟨rfl, by rcases ht with e | e <;> rw [e] <;> simp⟩
  · exact .inr ⟨rfl, ht⟩
  · exact ht.elim

/-- Everything told so far is in order. -/
theorem C72_partial (h : Client311.Reachable allowed c) (ha : ∀ c e, allowed c e → ¬ C51_excluded c e) :
    life c.log ≠ none := by
  obtain ⟨l, e, _⟩ := C72_told h ha
  rw [e]; simp

/-- What has been told agrees with the state of the connection; while an interruption is being dealt with (requests of
a clean session are cancelled before `on_interrupted` is invoked) it is still told to be up. -/
theorem C72_state_partial (h : Client311.Reachable allowed c) (ha : ∀ c e, allowed c e → ¬ C51_excluded c e) :
    (c.state = .disconnected → life c.log = some .none) ∧
    (c.state = .connecting → life c.log = some (if c.busy.inConnect then .none else .asked)) ∧
    (c.state = .connected → life c.log = some .up) ∧
    (c.state = .reconnecting → life c.log = some .lost ∨
      (life c.log = some .up ∧ ∃ all todo, c.busy = .cancelling all todo (.shutdown .connected))) ∧
    (c.state = .disconnecting → life c.log = some .up ∨ life c.log = some .lost) := by
  obtain ⟨l, e, f⟩ := C72_told h ha
  rw [e]
  refine ⟨fun hs => ?_, fun hs => ?_, fun hs => ?_, fun hs => ?_, fun hs => ?_⟩ <;> rw [hs] at f
  · exact congrArg some f
  · exact congrArg some f
  · exact congrArg some f
  · simp only [Fits] at f
    split at f
    · next hb =>
      refine .inr ⟨congrArg some f, ?_⟩
      unfold Busy.losing at hb
      split at hb
      · next a t e => exact ⟨a, t, e⟩
      · cases hb
    · exact .inl (congrArg some f)
  · rcases f with f | ⟨f, _⟩
    · exact .inl (congrArg some f)
    · exact .inr (congrArg some f)

/-- Once a connection is told to be over (or never to have been established), the next connect is not refused. -/
theorem C72_next_partial (h : Client311.Reachable allowed c) (ha : ∀ c e, allowed c e → ¬ C51_excluded c e)
    (hl : life c.log = some .none) (hb : c.busy.inConnect = false) {clean : Bool} {c' : Conn}
    (hs : Client311.step c (.connect clean) = .ok c') : c'.log = c.log ∧ c'.state = .connecting ∧ c'.busy.inConnect = true := by
  obtain ⟨l, e, f⟩ := C72_told h ha
  rw [hl] at e
  cases e
  have hst : c.state = .disconnected := by
    cases hst : c.state with
    | disconnected => rfl
    | connecting => rw [hst] at f; simp only [Fits, hb] at f; cases f
    | connected => rw [hst] at f; cases f
    | reconnecting =>
      rw [hst] at f; simp only [Fits] at f
      split at f <;> cases f
    | disconnecting => rw [hst] at f; rcases f with f | ⟨f, _⟩ <;> cases f
  cases hs
  simp [Conn.connect, hst, Busy.inConnect]

/-- A second CONNACK: `on_connection_complete` for a connection that is up. -/
theorem C72_violated : ∃ c, Client311.Reachable (fun _ _ => True) c ∧ life c.log = none :=
  ⟨after [.connect false, .advance, .launch true, .setup .opened, .packet (.connack true), .packet (.connack true)],
    reachable_after _, by decide +kernel⟩

/-- A reconnect that cannot send CONNECT: `on_connection_complete` for a connection that is interrupted. -/
theorem C72_violated_unsent : ∃ c, Client311.Reachable (fun _ _ => True) c ∧ life c.log = none :=
  ⟨after [.connect false, .advance, .launch true, .setup .opened, .packet (.connack true), .close, .shutdown, .advance,
      .advance, .attempt true, .setup .unsent], reachable_after _, by decide +kernel⟩

/-- The history of C51: a failed connect, a successful one with an interruption, and a third. -/
example : life (playIf C51_ok {} C51_history).log = some .asked ∧
    (playIf C51_ok {} C51_history).log.filter isLink =
      [.connecting, .connectionComplete false, .connecting, .connectionComplete true, .interrupted, .resumed,
       .disconnected, .connecting] := by
  decide +kernel

end Mqtt.Props
