import Verif.Lemmas.FixedHeader
import Verif.Spec.Wire311

/-!
C01 / C02: the MQTT 3.1.1 remaining-length field.
Specification: MQTT 3.1.1 section 2.2.3 (little-endian base 128, high bit = continuation, at most
four bytes): `Spec.Varint` and `fieldValue`, independent of the encode and decode loops.
-/
namespace Mqtt.Props

open Mqtt.Spec

/-- C01 (legal range): between one and four bytes, of the shape MQTT prescribes; reading them back
from in front of any other data yields the number and leaves exactly that data. -/
theorem C01_remaining_length_roundtrip_partial (n : Nat) (h : n ≤ 268435455) (rest : Bytes) :
    1 ≤ (encodeRemainingLengthBytes n).length ∧ (encodeRemainingLengthBytes n).length ≤ 4 ∧
    Varint n (encodeRemainingLengthBytes n) ∧
    decodeRemainingLength (encodeRemainingLengthBytes n ++ rest) = .ok (n, rest) := by
  exact ⟨encodeRL_length_pos n, encodeRL_length_le 3 n (by simp; omega), encodeRL_varint n,
    decodeRL_encodeRL n (by omega) rest⟩

example : (268435455 : Nat) ≤ 268435455 ∧ encodeRemainingLengthBytes 321 = [193, 2] := by
  refine ⟨by decide, ?_⟩
  rw [encodeRemainingLengthBytes, if_neg (by decide), encodeRemainingLengthBytes, if_pos (by decide)]
  decide

/-- C01 is violated above the legal range: the encoder does not refuse, it writes five bytes for
2^28, and what it writes cannot be read back (fixed_header.c:14-31 has no upper bound check). -/
theorem C01_encoder_exceeds_four_bytes_violated :
    ∃ n : Nat, n < 2 ^ 32 - 1 ∧ ∃ b : Buf, ∃ b' : Buf, encodeRemainingLength b n = .ok b' ∧
      b'.data.length = b.data.length + 5 ∧
      decodeRemainingLength (b'.data.drop b.data.length) = .error .invalidRemainingLength := by
  refine ⟨2 ^ 28, by decide, ⟨10, []⟩, ⟨10, [128, 128, 128, 128, 1]⟩, ?_, by decide, by rfl⟩
  have h : encodeRemainingLengthBytes (2 ^ 28) = [128, 128, 128, 128, 1] := by
    repeat (rw [encodeRemainingLengthBytes]; simp only [Nat.reducePow, Nat.reduceDiv, if_true, if_false,
      reduceCtorEq, Nat.reduceMod])
    decide
  simp [encodeRemainingLength, h, Buf.put]

/-- C02: the reader succeeds exactly when one of the first four bytes has its high bit clear; it
consumes up to and including the first such byte and returns the value of those bytes. -/
theorem C02_decode_ok_iff (cur : Bytes) (v : Nat) (rest : Bytes) :
    decodeRemainingLength cur = .ok (v, rest) ↔
      ∃ pre last, cur = pre ++ last :: rest ∧ pre.length ≤ 3 ∧ (∀ b ∈ pre, 128 ≤ b.toNat) ∧
        last.toNat < 128 ∧ v = fieldValue (pre ++ [last]) := by
  rw [decodeRemainingLength, decodeLoop_ok_iff 3 1 0 (by decide)]
  simp [digits128_eq_fieldValue]

/-- C02: when fewer than four bytes are present and all are continuation bytes the reader asks for
more data; four continuation bytes are malformed; there is no other failure. -/
theorem C02_decode_failures (cur : Bytes) :
    (decodeRemainingLength cur = .error .shortBuffer ↔
      cur.length ≤ 3 ∧ ∀ b ∈ cur, 128 ≤ b.toNat) ∧
    (decodeRemainingLength cur = .error .invalidRemainingLength ↔
      4 ≤ cur.length ∧ ∀ b ∈ cur.take 4, 128 ≤ b.toNat) ∧
    (∀ e, decodeRemainingLength cur = .error e → e = .shortBuffer ∨ e = .invalidRemainingLength) := by
  have hs : decodeRemainingLength cur = .error .shortBuffer ↔
      cur.length ≤ 3 ∧ ∀ b ∈ cur, 128 ≤ b.toNat := by
    rw [decodeRemainingLength, decodeLoop_short_iff 3 1 0 (by decide)]
  have he : ∀ e, decodeRemainingLength cur = .error e → e = .shortBuffer ∨ e = .invalidRemainingLength :=
    fun e h => decodeLoop_err 1 0 cur e h
  refine ⟨hs, ?_, he⟩
  constructor
  · intro h
    have hall : ∀ b ∈ cur.take 4, 128 ≤ b.toNat := by
      intro b hb
      apply Nat.le_of_not_lt
      intro hlt
      -- the first byte below 128 among the first four would make the read succeed
      have : ∃ v rest, decodeRemainingLength cur = .ok (v, rest) := by
        have key : ∀ (l : Bytes) (k : Nat), b ∈ l.take k → ∃ pre last rest,
            l = pre ++ last :: rest ∧ pre.length < k ∧ (∀ x ∈ pre, 128 ≤ x.toNat) ∧ last.toNat < 128 := by
          intro l
          induction l with
          | nil => intro k h; simp at h
          | cons x xs ih =>
            intro k hk
            cases k with
            | zero => simp at hk
            | succ k =>
              by_cases hx : x.toNat < 128
              · exact ⟨[], x, xs, by simp, by simp, by simp, hx⟩
              · simp only [List.take_succ_cons, List.mem_cons] at hk
                rcases hk with rfl | hk
                · exact absurd hlt hx
                · obtain ⟨pre, last, rest, h1, h2, h3, h4⟩ := ih k hk
                  refine ⟨x :: pre, last, rest, by simp [h1], by simp; omega, ?_, h4⟩
                  intro y hy
                  rcases List.mem_cons.mp hy with rfl | hy
                  · omega
                  · exact h3 y hy
        obtain ⟨pre, last, rest, h1, h2, h3, h4⟩ := key cur 4 hb
        exact ⟨_, rest, (C02_decode_ok_iff cur _ rest).mpr ⟨pre, last, h1, by omega, h3, h4, rfl⟩⟩
      obtain ⟨v, rest, hok⟩ := this
      rw [hok] at h; simp at h
    refine ⟨?_, hall⟩
    apply Nat.le_of_not_lt
    intro hlt
    have : cur.take 4 = cur := List.take_of_length_le (by omega)
    rw [this] at hall
    have := hs.mpr ⟨by omega, hall⟩
    rw [this] at h; simp at h
  · rintro ⟨hlen, hall⟩
    match hd : decodeRemainingLength cur with
    | .error e =>
      rcases he e hd with rfl | rfl
      · have := (hs.mp hd).1; omega
      · rfl
    | .ok (v, rest) =>
      obtain ⟨pre, last, rfl, h2, h3, h4, _⟩ := (C02_decode_ok_iff cur v rest).mp hd
      have : last ∈ (pre ++ last :: rest).take 4 := by
        rw [List.take_append]
        apply List.mem_append_right
        have : 4 - pre.length = (3 - pre.length) + 1 := by omega
        rw [this, List.take_succ_cons]; simp
      have := hall last this
      omega

/-- C02: a value read is always below 2^28. -/
theorem C02_decode_bound (cur : Bytes) (v : Nat) (rest : Bytes)
    (h : decodeRemainingLength cur = .ok (v, rest)) : v < 2 ^ 28 := by
  obtain ⟨pre, last, rfl, h2, h3, h4, rfl⟩ := (C02_decode_ok_iff cur v rest).mp h
  rw [← digits128_eq_fieldValue]
  have : ∀ (bs : Bytes), digits128 bs < 128 ^ bs.length := by
    intro bs
    induction bs with
    | nil => simp [digits128]
    | cons b bs ih => simp only [digits128, List.length_cons, Nat.pow_succ]; omega
  have h5 := this (pre ++ [last])
  have h6 : 128 ^ (pre ++ [last]).length ≤ 128 ^ 4 :=
    Nat.pow_le_pow_right (by omega) (by simp; omega)
  have : (128 : Nat) ^ 4 = 2 ^ 28 := by decide
  omega

example : decodeRemainingLength [0xC1, 0x02, 0x77] = .ok (321, [0x77]) := by rfl
example : decodeRemainingLength [0x80, 0x80, 0x80] = .error .shortBuffer := by rfl
example : decodeRemainingLength [0x80, 0x80, 0x80, 0x80] = .error .invalidRemainingLength := by rfl

end Mqtt.Props
