import Verif.Lemmas.Notify311

/-! C91: listeners of a 3.1.1 connection are told what its own callbacks are told. -/
namespace Mqtt.Props
open Mqtt.Client311

variable {allowed : Conn → Event → Prop} {c c' : Conn} {l : List Listener311.Kind}

/-- An event of a connection calls the handlers of listeners for what it tells the user, in the same order, but for a disconnect
that is told by the reconnect task. -/
theorem C91_event {e : Event} (hs : Client311.step c e = .ok c') :
    ∃ t, c'.log = c.log ++ t ∧ notices t = passed c e ++ if e.atRest c then [.disconnect] else [] := step_adds hs

/-- In histories in which disconnect() is not called while the connection waits to reconnect, listeners are told what the user is
told. -/
theorem C91_same_partial (h : Heard (fun c e => allowed c e ∧ e.atRest c = false) c l) : l = notices c.log := by
  induction h with
  | init => rfl
  | @step c c' e l _ _ _ ha hs ih =>
    obtain ⟨t, e1, e2⟩ := step_adds hs
    rw [ha.2] at e2
    rw [e1, notices_append, ← ih, e2]
    simp

/-- In all histories they are told of messages, connections and interruptions as the user is, and of no disconnect that is none. -/
theorem C91_others (h : Heard allowed c l) :
    l.filter (· ≠ .disconnect) = (notices c.log).filter (· ≠ .disconnect) ∧ l.Sublist (notices c.log) := by
  induction h with
  | init => exact ⟨rfl, .refl _⟩
  | @step c c' e l _ _ _ ha hs ih =>
    obtain ⟨t, e1, e2⟩ := step_adds hs
    rw [e1, notices_append, e2, ← List.append_assoc]
    constructor
    · simp only [List.filter_append]
      rw [ih.1]
      split <;> simp
    · have := ih.2.append (List.Sublist.refl (passed c e))
      exact this.trans (List.sublist_append_left _ _)

/-- This is the only exception: listeners have been told what the user has been told exactly if there is a history to this
point in which disconnect() is not called while the connection waits to reconnect. -/
theorem C91_exact (h : Heard allowed c l) :
    l = notices c.log ↔ Heard (fun c e => allowed c e ∧ e.atRest c = false) c l := by
  refine ⟨fun hl => ?_, C91_same_partial⟩
  induction h with
  | init => exact .init
  | @step c c' e l h h1 h2 ha hs ih =>
    obtain ⟨t, e1, e2⟩ := step_adds hs
    have hle := (C91_others h).2.length_le
    rw [e1, notices_append, e2] at hl
    have hlen := congrArg List.length hl
    simp only [List.length_append] at hlen
    cases hr : e.atRest c with
    | true =>
      rw [hr] at hlen
      simp only [if_true, List.length_singleton] at hlen
      omega
    | false =>
      rw [hr] at hl
      simp only [Bool.false_eq_true, if_false, List.append_nil] at hl
      exact .step (ih (List.append_cancel_right hl)) h1 h2 ⟨ha, hr⟩ hs

/-- In all histories listeners take the connection for established when the user does. -/
theorem C91_online (h : Heard allowed c l) : online l = online (notices c.log) := by
  induction h with
  | init => rfl
  | @step c c' e l h _ he ha hs ih =>
    obtain ⟨t, e1, e2⟩ := step_adds hs
    rw [e1, notices_append, e2]
    by_cases hr : e.atRest c = true
    · have h0 := h.reachable.resting he hr
      have hp : passed c e = [] := by
        cases e with
        | attempt ok => rfl
        | _ => cases hr
      rw [hr, hp, if_pos rfl, List.append_nil, List.nil_append, ih, h0, online_append, h0]
      rfl
    · rw [if_neg hr, List.append_nil, online_append, online_append, ih]

/-- The connection is established and lost. disconnect() is called while it waits to reconnect. -/
def C91_history : List Event :=
  [.connect false, .advance, .launch true, .setup .opened, .packet (.connack true), .packet (.publish 0 0), .close, .shutdown,
   .advance, .advance, .disconnect, .attempt true]

private def hear (c : Conn) (l : List Listener311.Kind) : List Event → Conn × List Listener311.Kind
  | [] => (c, l)
  | e :: es =>
    if c.destroyed = false ∧ Enabled c e = true then
      match Client311.step c e with
      | .ok c' => hear c' (l ++ passed c e) es
      | .error _ => (c, l)
    else (c, l)

private theorem hear_sound (es : List Event) {c : Conn} {l : List Listener311.Kind} (h : Heard (fun _ _ => True) c l) :
    Heard (fun _ _ => True) (hear c l es).1 (hear c l es).2 := by
  induction es generalizing c l with
  | nil => exact h
  | cons e es ih =>
    unfold hear
    split
    · next hc =>
      split
      · next c' hs => exact ih (.step h hc.1 hc.2 trivial hs)
      · exact h
    · exact h

/-- `on_disconnect` is invoked, and the handler of listeners for it is not called. -/
theorem C91_violated : ∃ c l, Heard (fun _ _ => True) c l ∧ c.state = .disconnected ∧ .disconnected ∈ c.log ∧
    notices c.log = [.success, .publish, .interrupted, .disconnect] ∧ l = [.success, .publish, .interrupted] :=
  ⟨_, _, hear_sound C91_history .init, by decide +kernel, by decide +kernel, by decide +kernel, by decide +kernel⟩

/-- A history in which they are told of the disconnect. -/
example : ∃ c l, Heard (fun _ _ => True) c l ∧ notices c.log = [.success, .interrupted, .success, .disconnect] ∧
    l = [.success, .interrupted, .success, .disconnect] :=
  ⟨_, _, hear_sound [.connect false, .advance, .launch true, .setup .opened, .packet (.connack true), .close, .shutdown, .advance,
    .advance, .attempt true, .setup .opened, .packet (.connack true), .disconnect, .disconnectTask, .shutdown, .advance] .init,
    by decide +kernel, by decide +kernel⟩

end Mqtt.Props
