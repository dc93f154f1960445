import Verif.Vli5
import Verif.Lemmas.FixedHeader
import Verif.Lemmas.Decoder311

namespace Mqtt.V5

theorem vliBytes_eq (n : Nat) : vliBytes n = encodeRemainingLengthBytes n := by
  induction n using vliBytes.induct with
  | case1 n h => rw [vliBytes, encodeRemainingLengthBytes, if_pos h, if_pos h]
  | case2 n h ih => rw [vliBytes, encodeRemainingLengthBytes, if_neg h, if_neg h, ih]

/-- The result of the 3.1.1 reader in the vocabulary of the MQTT 5 one. -/
def ofRL : Except Err (Nat × Bytes) → VliResult
  | .ok (n, rest) => .ok n rest
  | .error .shortBuffer => .more
  | .error _ => .error

theorem or_shift (value b shift : Nat) (h : value < 2 ^ shift) :
    value ||| (b <<< shift) = value + b * 2 ^ shift := by
  rw [Nat.or_comm, Nat.shiftLeft_eq, Nat.mul_comm, ← Nat.two_pow_add_eq_or_of_lt h, Nat.add_comm]

theorem decodeVliLoop_eq (k shift value : Nat) (cur : Bytes) (hs : shift = 7 * (3 - k)) (hk : k ≤ 3)
    (hv : value < 2 ^ shift) :
    decodeVliLoop (k + 1) shift value cur = ofRL (decodeRemainingLengthLoop (2 ^ shift) value cur) := by
  induction cur generalizing k shift value with
  | nil => simp [decodeVliLoop, decodeRemainingLengthLoop, ofRL]
  | cons b rest ih =>
    have hb : (b &&& 127).toNat < 128 := by rw [and127]; omega
    have hmul : 2 ^ shift * 128 = 2 ^ (shift + 7) := by rw [Nat.pow_add]
    have hv' : value + (b &&& 127).toNat * 2 ^ shift < 2 ^ (shift + 7) := by
      have : (b &&& 127).toNat * 2 ^ shift ≤ 127 * 2 ^ shift := Nat.mul_le_mul_right _ (by omega)
      omega
    simp only [decodeVliLoop, decodeRemainingLengthLoop]
    rw [or_shift _ _ _ hv, hmul]
    by_cases hc : b &&& 128 = 0
    · rw [if_pos hc, if_pos hc]; rfl
    · rw [if_neg hc, if_neg hc]
      cases k with
      | zero =>
        subst hs
        simp [decodeVliLoop, ofRL]
      | succ k =>
        have hle : ¬ 2 ^ (shift + 7) > 128 * 128 * 128 := by
          have : 2 ^ (shift + 7) ≤ 2 ^ 21 := Nat.pow_le_pow_right (by omega) (by omega)
          omega
        rw [if_neg hle]
        exact ih k (shift + 7) _ (by omega) (by omega) hv'

theorem decodeVli_eq (cur : Bytes) : decodeVli cur = ofRL (decodeRemainingLength cur) := by
  simpa [decodeVli, decodeRemainingLength] using decodeVliLoop_eq 3 0 0 cur rfl (by omega) (by simp)

theorem decodeVli_vliBytes (n : Nat) (h : n ≤ maxVli) (rest : Bytes) :
    decodeVli (vliBytes n ++ rest) = .ok n rest := by
  rw [decodeVli_eq, vliBytes_eq, decodeRL_encodeRL n (by omega)]; rfl

theorem decodeVli_lengthField {n : Nat} {vs : Bytes} (h : Spec.LengthField n vs) (rest : Bytes) :
    decodeVli (vs ++ rest) = .ok n rest := by
  rw [decodeVli_eq, decodeRL_lengthField h]; rfl

theorem decodeVli_ok {cur rest : Bytes} {n : Nat} (h : decodeVli cur = .ok n rest) :
    ∃ vs, Spec.LengthField n vs ∧ cur = vs ++ rest := by
  rw [decodeVli_eq] at h
  cases hd : decodeRemainingLength cur with
  | error e => rw [hd] at h; cases e <;> simp [ofRL] at h
  | ok p =>
    rw [hd] at h
    simp only [ofRL, VliResult.ok.injEq] at h
    obtain ⟨rfl, rfl⟩ := h
    exact lengthField_of_decodeRL hd

theorem vliBytes_length_le (n : Nat) (h : n ≤ maxVli) : (vliBytes n).length ≤ 4 := by
  rw [vliBytes_eq]; exact encodeRL_length_le 3 n (by simp; omega)

theorem vliSize_eq (n : Nat) (h : n ≤ maxVli) : vliSize n = some (vliBytes n).length := by
  have step : ∀ m, ¬ m / 128 = 0 → (vliBytes m).length = 1 + (vliBytes (m / 128)).length := by
    intro m hm; rw [vliBytes, if_neg hm]; simp [Nat.add_comm]
  have base : ∀ m, m / 128 = 0 → (vliBytes m).length = 1 := by
    intro m hm; rw [vliBytes, if_pos hm]; simp
  unfold vliSize
  rw [if_neg (by omega)]
  split
  · rw [base n (by omega)]
  · rw [step n (by omega)]
    split
    · rw [base _ (by omega)]
    · rw [step _ (by omega)]
      split
      · rw [base _ (by omega)]
      · rw [step _ (by omega), base _ (by omega)]

theorem vliSize_none (n : Nat) (h : n > maxVli) : vliSize n = none := by
  unfold vliSize; rw [if_pos h]

theorem vliSize_some {n k : Nat} (h : vliSize n = some k) : n ≤ maxVli ∧ k = (vliBytes n).length := by
  by_cases hn : n ≤ maxVli
  · rw [vliSize_eq n hn] at h; simp at h; exact ⟨hn, h.symm⟩
  · rw [vliSize_none n (by omega)] at h; simp at h

end Mqtt.V5
