import Verif.Lemmas.Client5Life
import Verif.Lemmas.Client5Run

/-!
C33: the order of lifecycle events of the MQTT 5 client.
-/
namespace Mqtt.Props
open Mqtt.Client5 Mqtt.V5

/-- **C33, partial**: on every history the lifecycle events come in the documented order, except that a connection
success may follow an attempt that was reported as failed because the client was stopped. -/
theorem C33_partial {cfg : Config} {c : Client} (h : Reachable cfg c) : (follow true c.ctl.events).isSome = true := by
  have hf := (reachable_event h).fits
  unfold Fits at hf
  split at hf
  · obtain ⟨b, hf⟩ := hf; rw [hf]; rfl
  · rw [hf]; rfl
  · rw [hf]; rfl

/-- A success right after an attempt that failed because the client was stopped. -/
def Restarts (events : List LEvent) : Prop := ∃ a b, events = a ++ .failure .userStop :: .success :: b

theorem foldl_none (b : Bool) (l : List LEvent) : l.foldl (followOne b) none = none := by
  induction l with
  | nil => rfl
  | cons e l ih => cases e <;> exact ih

theorem follow_strict {l : List LEvent} {p : Phase} (h : (l.foldl (followOne true) (some p)).isSome = true)
    (hr : ¬Restarts l) (hp : p = .idle true → ∀ l', l ≠ .success :: l') :
    l.foldl (followOne false) (some p) = l.foldl (followOne true) (some p) := by
  induction l generalizing p with
  | nil => rfl
  | cons e l ih =>
    have hr' : ¬Restarts l := fun ⟨a, b, h⟩ => hr ⟨e :: a, b, by rw [h]; rfl⟩
    have heq : followOne false (some p) e = followOne true (some p) e := by
      cases p with
      | idle s =>
        cases e with
        | success =>
          cases s with
          | true => exact absurd rfl (hp rfl l)
          | false => rfl
        | _ => rfl
      | _ => cases e <;> rfl
    simp only [List.foldl_cons, heq] at h ⊢
    cases hq : followOne true (some p) e with
    | none => rw [hq, foldl_none] at h; cases h
    | some q =>
      rw [hq] at h
      refine ih h hr' ?_
      intro hqi l' hl
      subst hqi hl
      apply hr
      refine ⟨[], l', ?_⟩
      have : e = .failure .userStop := by
        cases p <;> cases e <;> simp [followOne] at hq
        · rw [hq]
      rw [this]; rfl

/-- **C33, partial**: they come in the documented order, unless the user starts the client again while the connection
attempt they stopped is still under way (missing: the histories of `C33_violated`). -/
theorem C33_order_partial {cfg : Config} {c : Client} (h : Reachable cfg c) (hr : ¬Restarts c.ctl.events) :
    (follow false c.ctl.events).isSome = true := by
  have h1 := C33_partial h
  rw [follow] at h1 ⊢
  rw [follow_strict h1 hr (by simp)]
  exact h1

/-- The stopped event is only seen when no attempt and no connection is under way. -/
theorem C33_stopped {cfg : Config} {c : Client} (h : Reachable cfg c) {a b : List LEvent}
    (he : c.ctl.events = a ++ .stopped :: b) : ∃ s, follow true a = some (.idle s) := by
  have h1 := C33_partial h
  rw [he, follow_append, List.foldl_cons] at h1
  cases hq : follow true a with
  | none => rw [hq] at h1; simp only [followOne, foldl_none] at h1; cases h1
  | some p =>
    rw [hq] at h1
    cases p with
    | idle s => exact ⟨s, rfl⟩
    | _ => simp only [followOne, foldl_none] at h1; cases h1

/-- **C33 does not hold**: the user stops the client with a DISCONNECT while the connection is being set up, which is
reported as a failure at once, and starts it again; the attempt goes on and the next event is a connection success. -/
theorem C33_violated : ∃ cfg c, Reachable cfg c ∧ c.ctl.events = [.attempting, .failure .userStop, .success] ∧
    follow false c.ctl.events = none := by
  have h : (run {} (Client.new {}) [.setDesired .connected none, .service {}, .setDesired .stopped (some {}),
      .setDesired .connected none, .setup none 1, .service {}, .writeComplete .success,
      .packet (.connack {}) false 1]).test
      (fun c => decide (c.ctl.events = [.attempting, .failure .userStop, .success])) = true := by decide +kernel
  obtain ⟨c, hr, hc⟩ := run_test h
  simp only [decide_eq_true_eq] at hc
  exact ⟨{}, c, hr, hc, by rw [hc]; rfl⟩

/-- Not vacuous: connect, lose the connection, fail to reconnect, stop. -/
example : (run {} (Client.new {}) (connectWith {} ++ [.shutdown .hangup, .service {}, .setup (some .hangup) 1,
    .setDesired .stopped none, .service {}])).test
    (fun c => decide (c.ctl.events = [.attempting, .success, .disconnection .hangup, .attempting, .failure .hangup,
      .stopped]) && decide (follow false c.ctl.events = some (.idle false))) = true := by decide +kernel

end Mqtt.Props
