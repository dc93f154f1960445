import Verif.Props.C41

/-!
C43: no assertion of the subscription manager fails.

`Fault` has the two ways in which the manager can fail: a failed `AWS_FATAL_ASSERT` (a completion that is not expected, or
a status event sent to the wrong kind of listener) and the use of a record that does not exist. `Enabled` says what is
required of the surroundings: a subscribe or unsubscribe completes only if one is outstanding, and the manager is not used
after `clean_up`.
-/
namespace Mqtt.Props
open Mqtt.Rr

/-- **C43**: after any history, no call faults. -/
theorem C43 {cfg : Config} {m : Manager} (h : Reachable cfg m) (e : Event) (he : Enabled m e) :
    ∃ m', step cfg m e = .ok m' := by
  obtain ⟨m', h1, _⟩ := step_ok (reachable_minv h) e he
  exact ⟨m', h1⟩

/-- **C43**, for sequences of calls. -/
theorem C43_run {cfg : Config} {m : Manager} (h : Reachable cfg m) {es : List Event} (he : rrEnabled cfg m es) :
    ∃ m', rrRun cfg m es = .ok m' := by
  induction es generalizing m with
  | nil => exact ⟨m, rfl⟩
  | cons e es ih =>
    obtain ⟨m1, h1⟩ := C43 h e he.1
    have he2 := he.2
    rw [h1] at he2
    obtain ⟨m', h2⟩ := ih (h.step he.1 h1) he2
    exact ⟨m', by simp only [rrRun, h1]; exact h2⟩

/-- The assertions are there: a completion that nobody awaits does fail. -/
example : ∃ m, Reachable rrCfg m ∧ step rrCfg m (.finished {} [97] .unsubscribe true false) = .error .abort := by
  refine ⟨_, rrRun_reachable (es := [.acquire {} [[97]] 7 .request]) (.new true) ⟨rfl, trivial⟩ rfl, ?_⟩
  rfl

/-- A lost session while an unsubscribe is outstanding, followed by its completion. -/
example : ∃ m m', Reachable rrCfg m ∧ Enabled m (.finished {} [97] .unsubscribe true false) ∧
    step rrCfg m (.finished {} [97] .unsubscribe true false) = .ok m' ∧ m.records.keys = [[97]] := by
  refine ⟨_, _, rrRun_reachable (es := rrHistory ++ [.connection {} false false, .connection {} true false]) (.new true) ?_ rfl,
    ?_, rfl, ?_⟩
  · exact ⟨rfl, ⟨rfl, by decide +kernel⟩, rfl, rfl, rfl, rfl, rfl, trivial⟩
  · exact ⟨rfl, by decide +kernel⟩
  · decide +kernel

end Mqtt.Props
