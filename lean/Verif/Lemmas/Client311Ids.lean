import Verif.Client311

/-! The search for a free packet id. -/
namespace Mqtt.Client311

theorem nextId_range {id : Nat} (h : id ≤ 65535) : 1 ≤ nextId id ∧ nextId id ≤ 65535 := by
  unfold nextId
  split <;> omega

theorem searchId_range (used : Nat → Bool) (start : Nat) (fuel id : Nat) (h : id ≤ 65535) (hf : fuel ≠ 0) :
    1 ≤ (searchId used start fuel id).1 ∧ (searchId used start fuel id).1 ≤ 65535 := by
  induction fuel generalizing id with
  | zero => exact absurd rfl hf
  | succ n ih =>
    have hr := nextId_range h
    unfold searchId
    simp only
    split
    · exact hr
    · split
      · exact hr
      · cases n with
        | zero => exact hr
        | succ m => exact ih _ hr.2 (by omega)

theorem searchId_free (used : Nat → Bool) (start : Nat) (fuel id : Nat)
    (h : (searchId used start fuel id).2 = true) : used (searchId used start fuel id).1 = false := by
  induction fuel generalizing id with
  | zero => simp [searchId] at h
  | succ n ih =>
    unfold searchId at h ⊢
    simp only at h ⊢
    split
    · next e => simpa using e
    · next e =>
      rw [if_neg e] at h
      split
      · next e2 => simp [e2] at h
      · next e2 =>
        rw [if_neg e2] at h
        exact ih _ h

/-- The `k`-th id tried. -/
def candidate (start k : Nat) : Nat := if start + k ≤ 65535 then start + k else start + k - 65535

theorem candidate_succ {start k : Nat} (h1 : 1 ≤ start) (h2 : start ≤ 65535) (hk : k < 65535) :
    nextId (candidate start k) = candidate start (k + 1) := by
  unfold nextId candidate
  split <;> split <;> split <;> omega

theorem searchId_full (used : Nat → Bool) {start : Nat} (h1 : 1 ≤ start) (h2 : start ≤ 65535) (fuel k : Nat)
    (hf : fuel + k = 65536) (hk : k < 65535) (hu : ∀ j, 1 ≤ j → j ≤ k → used (candidate start j) = true)
    (h : (searchId used start fuel (candidate start k)).2 = false) :
    ∀ j, 1 ≤ j → j ≤ 65535 → used (candidate start j) = true := by
  induction fuel generalizing k with
  | zero => omega
  | succ n ih =>
    unfold searchId at h
    simp only [candidate_succ h1 h2 hk] at h
    split at h
    · simp at h
    · next e =>
      have hu1 : used (candidate start (k + 1)) = true := by simpa using e
      have hu' : ∀ j, 1 ≤ j → j ≤ k + 1 → used (candidate start j) = true := by
        intro j hj hj2
        by_cases e : j = k + 1
        · rw [e]; exact hu1
        · exact hu j hj (by omega)
      split at h
      · next e2 =>
        have : k + 1 = 65535 := by
          unfold candidate at e2
          split at e2 <;> omega
        intro j hj hj2
        exact hu' j hj (by omega)
      · next e2 =>
        have : k + 1 ≠ 65535 := by
          intro h
          apply e2
          unfold candidate
          split <;> omega
        exact ih (k + 1) (by omega) (by omega) hu' h

/-- Only when all 65535 ids are in use the search ends without one. -/
theorem searchId_none {used : Nat → Bool} {start : Nat} (h2 : start ≤ 65535) (h0 : start = 0 → used 1 = false)
    (h : (searchId used start 65536 start).2 = false) : ∀ i, 1 ≤ i → i ≤ 65535 → used i = true := by
  by_cases e : start = 0
  · subst e
    have := h0 rfl
    unfold searchId at h
    simp [nextId, this] at h
  · have key := searchId_full used (by omega) h2 65536 0 (by omega) (by omega) (fun j h h' => by omega)
      (by simpa [candidate, h2] using h)
    intro i hi hi2
    by_cases hgt : start < i
    · have := key (i - start) (by omega) (by omega)
      unfold candidate at this
      rw [if_pos (by omega)] at this
      rwa [show start + (i - start) = i by omega] at this
    · have := key (i + 65535 - start) (by omega) (by omega)
      unfold candidate at this
      rw [if_neg (by omega)] at this
      rwa [show start + (i + 65535 - start) - 65535 = i by omega] at this

end Mqtt.Client311
