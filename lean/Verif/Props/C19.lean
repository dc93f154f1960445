import Verif.Lemmas.Vli5

/-!
C19: MQTT 5 variable length integers round-trip, sizes agree, larger values are refused, and the reader
asks for more data on every strict prefix.
-/
namespace Mqtt.Props
open Mqtt.V5

/-- C19: what is written is the shortest MQTT encoding of the value, at most four bytes, of the size the
size function announces. -/
theorem C19_encode (n : Nat) (h : n ≤ 268435455) (b : Buf) (hb : b.data.length + 4 ≤ b.cap) :
    ∃ bs, encodeVli b n = .ok { b with data := b.data ++ bs } ∧ Spec.Varint n bs ∧
      1 ≤ bs.length ∧ bs.length ≤ 4 ∧ vliSize n = some bs.length := by
  refine ⟨vliBytes n, ?_, ?_, ?_, vliBytes_length_le n h, vliSize_eq n h⟩
  · have := vliBytes_length_le n h
    unfold encodeVli Buf.put
    rw [if_neg (by omega), if_pos (by omega)]
  · rw [vliBytes_eq]; exact encodeRL_varint n
  · rw [vliBytes_eq]; exact encodeRL_length_pos n

example : encodeVli ⟨10, [7]⟩ 300 = .ok ⟨10, [7, 172, 2]⟩ ∧ vliSize 300 = some 2 := by
  decide +kernel

/-- C19: larger values are refused by both functions, and nothing is written. -/
theorem C19_refused (n : Nat) (h : n > 268435455) (b : Buf) :
    encodeVli b n = .error .invalidArgument ∧ vliSize n = none := by
  refine ⟨?_, vliSize_none n h⟩
  unfold encodeVli; rw [if_pos h]

example : encodeVli ⟨10, []⟩ 268435456 = .error .invalidArgument ∧ vliSize 268435456 = none := by
  decide +kernel

/-- C19: the reader returns the value and stops right behind it; every strict prefix asks for more. -/
theorem C19_roundtrip (n : Nat) (h : n ≤ 268435455) (bs : Bytes) (hb : Spec.Varint n bs) (rest : Bytes) :
    decodeVli (bs ++ rest) = .ok n rest ∧
    ∀ p, p <+: bs → p ≠ bs → decodeVli p = .more := by
  have e : bs = vliBytes n := by rw [varint_eq hb, vliBytes_eq]
  subst e
  refine ⟨decodeVli_vliBytes n h rest, ?_⟩
  intro p hp hne
  have hlen := vliBytes_length_le n h
  obtain ⟨pre, last, he, hpre, hlast, _⟩ := encodeRL_shape n
  rw [← vliBytes_eq] at he
  rw [he] at hp hne hlen
  rw [List.prefix_concat_iff] at hp
  have hp : p <+: pre := by
    cases hp with
    | inl h => exact absurd h hne
    | inr h => exact h
  have hsub : ∀ b ∈ p, 128 ≤ b.toNat := fun b hb => hpre b (hp.subset hb)
  have hl := hp.length_le
  simp at hlen
  rw [decodeVli_eq, decodeRemainingLength,
    (decodeLoop_short_iff 3 1 0 (by decide) p).mpr ⟨by omega, hsub⟩]
  rfl

example : Spec.Varint 300 [172, 2] ∧ decodeVli [172, 2, 9] = .ok 300 [9] ∧ decodeVli [172] = .more ∧
    decodeVli [] = .more :=
  ⟨.more 172 2 [2] (by decide) (by decide) (.last 2 (by decide)), by decide +kernel, by decide +kernel,
    by decide +kernel⟩

/-- C19: every outcome of the reader on arbitrary bytes.  A value comes from one to four bytes, all but
the last with the continuation bit; more data is asked for on fewer than four bytes that all have it;
four such bytes are an error. -/
theorem C19_reader (cur : Bytes) :
    (∀ n rest, decodeVli cur = .ok n rest ↔ ∃ vs, Spec.LengthField n vs ∧ cur = vs ++ rest) ∧
    (decodeVli cur = .more ↔ cur.length ≤ 3 ∧ ∀ b ∈ cur, 128 ≤ b.toNat) ∧
    (decodeVli cur = .error ↔ 4 ≤ cur.length ∧ ∀ b ∈ cur.take 4, 128 ≤ b.toNat) := by
  have hok : ∀ n rest, decodeVli cur = .ok n rest ↔ ∃ vs, Spec.LengthField n vs ∧ cur = vs ++ rest := by
    intro n rest
    refine ⟨decodeVli_ok, ?_⟩
    rintro ⟨vs, hv, rfl⟩
    exact decodeVli_lengthField hv rest
  have hmore : decodeVli cur = .more ↔ cur.length ≤ 3 ∧ ∀ b ∈ cur, 128 ≤ b.toNat := by
    rw [← decodeLoop_short_iff 3 1 0 (by decide) cur, decodeVli_eq, decodeRemainingLength]
    cases decodeRemainingLengthLoop 1 0 cur with
    | ok p => simp [ofRL]
    | error e => cases e <;> simp [ofRL]
  refine ⟨hok, hmore, ?_⟩
  constructor
  · intro he
    refine ⟨?_, ?_⟩
    · by_cases hall : ∀ b ∈ cur, 128 ≤ b.toNat
      · rcases Nat.lt_or_ge cur.length 4 with h | h
        · rw [hmore.mpr ⟨by omega, hall⟩] at he; simp at he
        · exact h
      · rcases Nat.lt_or_ge cur.length 4 with h | h
        · exfalso
          match cur, h, he with
          | [], _, he => simp [decodeVli, decodeVliLoop] at he
          | [a], _, he =>
            simp only [decodeVli, decodeVliLoop] at he
            split at he <;> simp at he
          | [a, b], _, he =>
            simp only [decodeVli, decodeVliLoop] at he
            split at he
            · simp at he
            · split at he <;> simp at he
          | [a, b, c], _, he =>
            simp only [decodeVli, decodeVliLoop] at he
            split at he
            · simp at he
            · split at he
              · simp at he
              · split at he <;> simp at he
        · exact h
    · match cur, he with
      | [], _ => simp
      | [a], he =>
        simp only [decodeVli, decodeVliLoop] at he
        split at he <;> simp at he
      | [a, b], he =>
        simp only [decodeVli, decodeVliLoop] at he
        split at he
        · simp at he
        · split at he <;> simp at he
      | [a, b, c], he =>
        simp only [decodeVli, decodeVliLoop] at he
        split at he
        · simp at he
        · split at he
          · simp at he
          · split at he <;> simp at he
      | a :: b :: c :: d :: r, he =>
        simp only [decodeVli, decodeVliLoop] at he
        split at he
        · simp at he
        · split at he
          · simp at he
          · split at he
            · simp at he
            · split at he
              · simp at he
              · rename_i h1 h2 h3 h4
                have hc : ∀ x : UInt8, ¬ x &&& 128 = 0 → 128 ≤ x.toNat := by
                  intro x hx
                  rcases Nat.lt_or_ge x.toNat 128 with h | h
                  · exact absurd ((and128 x).mpr h) hx
                  · exact h
                simp [hc a h1, hc b h2, hc c h3, hc d h4]
  · rintro ⟨hl, hall⟩
    match cur, hl, hall with
    | a :: b :: c :: d :: r, _, hall =>
      have hc : ∀ x ∈ [a, b, c, d], ¬ x &&& 128 = 0 := by
        intro x hx h0
        have := hall x (by simpa using hx)
        have := (and128 x).mp h0
        omega
      simp only [decodeVli, decodeVliLoop]
      rw [if_neg (hc a (by simp)), if_neg (hc b (by simp)), if_neg (hc c (by simp)),
        if_neg (hc d (by simp))]

example : decodeVli [255, 255, 255, 255, 1] = .error ∧ decodeVli [128, 0] = .ok 0 [] := by decide +kernel

end Mqtt.Props
