import Verif.FixedHeader
import Verif.Spec.Wire311

/-! Helper lemmas for the fixed header (no property statements here). -/
namespace Mqtt

/-- Little-endian base-128 value of the low seven bits. -/
def digits128 : Bytes → Nat
  | [] => 0
  | b :: rest => b.toNat % 128 + 128 * digits128 rest

/-- Full description of the decode loop after `3 - j` continuation bytes have been consumed. -/
theorem decodeLoop_ok_iff (j : Nat) (m acc : Nat) (hm : m * 128 ^ j = 128 ^ 3)
    (cur : Bytes) (v : Nat) (rest : Bytes) :
    decodeRemainingLengthLoop m acc cur = .ok (v, rest) ↔
      ∃ pre last, cur = pre ++ last :: rest ∧ pre.length ≤ j ∧
        (∀ b ∈ pre, 128 ≤ b.toNat) ∧ last.toNat < 128 ∧
        v = acc + m * digits128 (pre ++ [last]) := by
  induction cur generalizing j m acc with
  | nil => simp [decodeRemainingLengthLoop]
  | cons b bs ih =>
    unfold decodeRemainingLengthLoop
    simp only [and127, and128]
    by_cases hb : b.toNat < 128
    · simp only [hb, if_true]
      constructor
      · intro h
        simp only [Except.ok.injEq, Prod.mk.injEq] at h
        obtain ⟨rfl, rfl⟩ := h
        refine ⟨[], b, by simp, by simp, by simp, hb, ?_⟩
        simp [digits128, Nat.mul_comm]
      · rintro ⟨pre, last, hcur, hlen, hpre, hlast, hv⟩
        cases pre with
        | nil =>
          simp only [List.nil_append, List.cons.injEq] at hcur
          obtain ⟨rfl, rfl⟩ := hcur
          simp [hv, digits128, Nat.mul_comm]
        | cons p ps =>
          simp only [List.cons_append, List.cons.injEq] at hcur
          obtain ⟨rfl, _⟩ := hcur
          have := hpre b (by simp)
          omega
    · simp only [hb, if_false]
      cases j with
      | zero =>
        simp only [Nat.pow_zero, Nat.mul_one] at hm
        subst hm
        have hgt : (128 ^ 3 * 128 > 128 * 128 * 128) = True := by decide
        simp only [hgt, if_true]
        constructor
        · intro h; simp at h
        · rintro ⟨pre, last, hcur, hlen, hpre, hlast, hv⟩
          have : pre = [] := List.eq_nil_of_length_eq_zero (by omega)
          subst this
          simp only [List.nil_append, List.cons.injEq] at hcur
          obtain ⟨rfl, _⟩ := hcur
          omega
      | succ j =>
        have hm' : m * 128 * 128 ^ j = 128 ^ 3 := by rw [← hm, Nat.pow_succ, Nat.mul_assoc, Nat.mul_comm 128]
        have hle : ¬ (m * 128 > 128 * 128 * 128) := by
          have h1 : 0 < 128 ^ j := Nat.pow_pos (by omega)
          have h2 : m * 128 * 1 ≤ m * 128 * 128 ^ j := Nat.mul_le_mul_left _ h1
          rw [hm'] at h2
          have : (128:Nat) ^ 3 = 128 * 128 * 128 := by decide
          omega
        simp only [hle, if_false]
        rw [ih j (m * 128) _ hm']
        constructor
        · rintro ⟨pre, last, rfl, hlen, hpre, hlast, hv⟩
          refine ⟨b :: pre, last, rfl, by simp; omega, ?_, hlast, ?_⟩
          · intro x hx
            rcases List.mem_cons.mp hx with rfl | hx
            · omega
            · exact hpre x hx
          · rw [hv]
            simp only [List.cons_append, digits128]
            rw [Nat.mul_add, Nat.mul_comm (b.toNat % 128) m, Nat.add_assoc, Nat.mul_assoc]
        · rintro ⟨pre, last, hcur, hlen, hpre, hlast, hv⟩
          cases pre with
          | nil =>
            simp only [List.nil_append, List.cons.injEq] at hcur
            obtain ⟨rfl, _⟩ := hcur
            omega
          | cons p ps =>
            simp only [List.cons_append, List.cons.injEq] at hcur
            obtain ⟨rfl, rfl⟩ := hcur
            refine ⟨ps, last, rfl, by simp at hlen; omega,
              fun x hx => hpre x (by simp [hx]), hlast, ?_⟩
            rw [hv]
            simp only [List.cons_append, digits128]
            rw [Nat.mul_add, Nat.mul_comm (b.toNat % 128) m, Nat.add_assoc, Nat.mul_assoc]

theorem decodeLoop_short_iff (j : Nat) (m acc : Nat) (hm : m * 128 ^ j = 128 ^ 3) (cur : Bytes) :
    decodeRemainingLengthLoop m acc cur = .error .shortBuffer ↔
      cur.length ≤ j ∧ ∀ b ∈ cur, 128 ≤ b.toNat := by
  induction cur generalizing j m acc with
  | nil => simp [decodeRemainingLengthLoop]
  | cons b bs ih =>
    unfold decodeRemainingLengthLoop
    simp only [and128]
    by_cases hb : b.toNat < 128
    · simp only [hb, if_true]
      constructor
      · intro h; simp at h
      · rintro ⟨_, h⟩; have := h b (by simp); omega
    · simp only [hb, if_false]
      cases j with
      | zero =>
        simp only [Nat.pow_zero, Nat.mul_one] at hm
        subst hm
        have hgt : (128 ^ 3 * 128 > 128 * 128 * 128) = True := by decide
        simp [hgt]
      | succ j =>
        have hm' : m * 128 * 128 ^ j = 128 ^ 3 := by rw [← hm, Nat.pow_succ, Nat.mul_assoc, Nat.mul_comm 128]
        have hle : ¬ (m * 128 > 128 * 128 * 128) := by
          have h1 : 0 < 128 ^ j := Nat.pow_pos (by omega)
          have h2 : m * 128 * 1 ≤ m * 128 * 128 ^ j := Nat.mul_le_mul_left _ h1
          rw [hm'] at h2
          have : (128:Nat) ^ 3 = 128 * 128 * 128 := by decide
          omega
        simp only [hle, if_false]
        rw [ih j (m * 128) _ hm']
        simp only [List.length_cons, List.mem_cons, forall_eq_or_imp]
        constructor
        · rintro ⟨h1, h2⟩; exact ⟨by omega, by omega, h2⟩
        · rintro ⟨h1, _, h2⟩; exact ⟨by omega, h2⟩

theorem decodeLoop_err (m acc : Nat) (cur : Bytes) (e : Err)
    (h : decodeRemainingLengthLoop m acc cur = .error e) :
    e = .shortBuffer ∨ e = .invalidRemainingLength := by
  induction cur generalizing m acc with
  | nil => simp [decodeRemainingLengthLoop] at h; simp [← h]
  | cons b bs ih =>
    unfold decodeRemainingLengthLoop at h
    simp only at h
    split at h
    · simp at h
    · split at h
      · simp at h; simp [← h]
      · exact ih _ _ h

theorem or128 (r : Nat) (h : r < 128) : (UInt8.ofNat r ||| 128).toNat = r + 128 := by
  have : ∀ r, r < 128 → (UInt8.ofNat r ||| 128).toNat = r + 128 := by decide +kernel
  exact this r h

theorem encodeRL_length_le (k n : Nat) (h : n < 128 ^ (k + 1)) :
    (encodeRemainingLengthBytes n).length ≤ k + 1 := by
  induction k generalizing n with
  | zero =>
    unfold encodeRemainingLengthBytes
    have : n / 128 = 0 := by simp at h; omega
    simp [this]
  | succ k ih =>
    unfold encodeRemainingLengthBytes
    split
    · simp
    · simp only [List.length_cons]
      have : n / 128 < 128 ^ (k + 1) := by
        rw [Nat.div_lt_iff_lt_mul (by omega)]; rwa [Nat.pow_succ] at h
      have := ih _ this
      omega

theorem encodeRL_length_pos (n : Nat) : 1 ≤ (encodeRemainingLengthBytes n).length := by
  unfold encodeRemainingLengthBytes; split <;> simp

/-- The bytes written always have the shape (continuation bytes)(final byte) and value `n`. -/
theorem encodeRL_shape (n : Nat) :
    ∃ pre last, encodeRemainingLengthBytes n = pre ++ [last] ∧
      (∀ b ∈ pre, 128 ≤ b.toNat) ∧ last.toNat < 128 ∧ digits128 (pre ++ [last]) = n := by
  induction n using encodeRemainingLengthBytes.induct with
  | case1 n h =>
    have hn : n < 128 := by omega
    refine ⟨[], UInt8.ofNat (n % 128), ?_, by simp, ?_, ?_⟩
    · unfold encodeRemainingLengthBytes; simp [h]
    · simp [UInt8.toNat_ofNat']; omega
    · simp [digits128, UInt8.toNat_ofNat']; omega
  | case2 n h ih =>
    obtain ⟨pre, last, he, hpre, hlast, hd⟩ := ih
    have hm : n % 128 < 128 := by omega
    refine ⟨(UInt8.ofNat (n % 128) ||| 128) :: pre, last, ?_, ?_, hlast, ?_⟩
    · rw [encodeRemainingLengthBytes]; simp [h, he]
    · intro b hb
      rcases List.mem_cons.mp hb with rfl | hb
      · rw [or128 _ hm]; omega
      · exact hpre b hb
    · simp only [List.cons_append, digits128, hd, or128 _ hm]
      omega

/-- What the encoder writes is the encoding MQTT 2.2.3 prescribes. -/
theorem encodeRL_varint (n : Nat) : Spec.Varint n (encodeRemainingLengthBytes n) := by
  induction n using encodeRemainingLengthBytes.induct with
  | case1 n h =>
    rw [encodeRemainingLengthBytes, if_pos h]
    have hv : (UInt8.ofNat (n % 128)).toNat = n := by simp [UInt8.toNat_ofNat']; omega
    have := Spec.Varint.last (UInt8.ofNat (n % 128)) (by omega)
    rwa [hv] at this
  | case2 n h ih =>
    rw [encodeRemainingLengthBytes, if_neg h]
    have hm : n % 128 < 128 := by omega
    have hv := or128 (n % 128) hm
    have := Spec.Varint.more (UInt8.ofNat (n % 128) ||| 128) (n / 128) _ (by omega) (by omega) ih
    rwa [hv, show n % 128 + 128 - 128 + 128 * (n / 128) = n by omega] at this

theorem decodeRL_encodeRL (n : Nat) (h : n < 2 ^ 28) (rest : Bytes) :
    decodeRemainingLength (encodeRemainingLengthBytes n ++ rest) = .ok (n, rest) := by
  obtain ⟨pre, last, he, hpre, hlast, hd⟩ := encodeRL_shape n
  have hlen := encodeRL_length_le 3 n (by simpa using h)
  rw [decodeRemainingLength, decodeLoop_ok_iff 3 1 0 (by decide)]
  refine ⟨pre, last, by simp [he], ?_, hpre, hlast, by simp [hd]⟩
  rw [he] at hlen; simp at hlen; omega

theorem fixedHeaderEncode_eq (b : Buf) (h : FixedHeader)
    (hf : packetHasFlags h.packetType = true ∨ h.flags = 0) :
    fixedHeaderEncode b h =
      b.put (fixedHeaderByte h :: encodeRemainingLengthBytes h.remainingLength) := by
  have : (!packetHasFlags h.packetType && h.flags ≠ 0) = false := by
    rcases hf with hf | hf <;> simp [hf]
  unfold fixedHeaderEncode encodeRemainingLength
  simp only [this]
  exact Buf.put_bind b [fixedHeaderByte h] _

theorem fixedHeaderByte_split (h : FixedHeader) (ht : h.packetType < 16) (hf : h.flags.toNat < 16) :
    ((fixedHeaderByte h) >>> 4).toNat = h.packetType ∧ fixedHeaderByte h &&& 0xF = h.flags := by
  obtain ⟨t, rl, f⟩ := h
  simp only at ht hf
  have hcases : ∀ t, t < 16 → ∀ n, n < 16 →
      ((UInt8.ofNat (t <<< 4 ||| (UInt8.ofNat n &&& 0xF).toNat)) >>> 4).toNat = t ∧
      UInt8.ofNat (t <<< 4 ||| (UInt8.ofNat n &&& 0xF).toNat) &&& 0xF = UInt8.ofNat n := by
    decide +kernel
  have := hcases t ht f.toNat hf
  simp only [fixedHeaderByte]
  simpa using this

/-- Header decode inverts header encode whenever the body is present. -/
theorem fixedHeaderDecode_bytes (h : FixedHeader) (ht : h.packetType < 16) (hf : h.flags.toNat < 16)
    (hfl : packetHasFlags h.packetType = true ∨ h.flags = 0) (hr : h.remainingLength < 2 ^ 28)
    (body : Bytes) (hb : h.remainingLength ≤ body.length) :
    fixedHeaderDecode
      (fixedHeaderByte h :: encodeRemainingLengthBytes h.remainingLength ++ body) = .ok (h, body) := by
  obtain ⟨h1, h2⟩ := fixedHeaderByte_split h ht hf
  have h3 : (!packetHasFlags h.packetType && h.flags ≠ 0) = false := by
    rcases hfl with hf | hf <;> simp [hf]
  unfold fixedHeaderDecode
  simp only [List.cons_append, readU8, orShort, bind, Except.bind, decodeRL_encodeRL _ hr, h1, h2, h3]
  simp [Nat.not_lt.mpr hb]

theorem digits128_eq_fieldValue (bs : Bytes) : digits128 bs = Spec.fieldValue bs := by
  have gen : ∀ (bs : Bytes) (k : Nat),
      (bs.mapIdx fun i b => (b.toNat % 128) * 128 ^ (i + k)).sum = 128 ^ k * digits128 bs := by
    intro bs
    induction bs with
    | nil => simp [digits128]
    | cons b bs ih =>
      intro k
      have := ih (k + 1)
      simp only [List.mapIdx_cons, List.sum_cons, Nat.zero_add, digits128]
      have h2 : (fun i (b : UInt8) => b.toNat % 128 * 128 ^ (i + 1 + k)) =
          fun i b => b.toNat % 128 * 128 ^ (i + (k + 1)) := by
        funext i b; congr 2; omega
      rw [h2, this, Nat.pow_succ, Nat.mul_add, Nat.mul_comm (b.toNat % 128), Nat.mul_assoc]
  have := gen bs 0
  simpa [Spec.fieldValue] using this.symm


theorem decodeRL_lengthField {n : Nat} {vs : Bytes} (h : Spec.LengthField n vs) (rest : Bytes) :
    decodeRemainingLength (vs ++ rest) = .ok (n, rest) := by
  obtain ⟨pre, last, rfl, h1, h2, h3, h4⟩ := h
  rw [decodeRemainingLength, decodeLoop_ok_iff 3 1 0 (by decide)]
  exact ⟨pre, last, by simp, h1, h2, h3, by simp [h4, digits128_eq_fieldValue]⟩

theorem lengthField_of_decodeRL {cur rest : Bytes} {n : Nat} (h : decodeRemainingLength cur = .ok (n, rest)) :
    ∃ vs, Spec.LengthField n vs ∧ cur = vs ++ rest := by
  rw [decodeRemainingLength, decodeLoop_ok_iff 3 1 0 (by decide)] at h
  obtain ⟨pre, last, h0, h1, h2, h3, h4⟩ := h
  exact ⟨pre ++ [last], ⟨pre, last, rfl, h1, h2, h3, by simpa [digits128_eq_fieldValue] using h4⟩, by simp [h0]⟩

theorem lengthField_lt {n : Nat} {vs : Bytes} (h : Spec.LengthField n vs) : n < 2 ^ 28 := by
  obtain ⟨pre, last, rfl, h1, h2, h3, h4⟩ := h
  rw [h4, ← digits128_eq_fieldValue]
  have : ∀ bs : Bytes, digits128 bs < 128 ^ bs.length := by
    intro bs
    induction bs with
    | nil => simp [digits128]
    | cons b bs ih =>
      simp only [digits128, List.length_cons, Nat.pow_succ]
      have := Nat.mod_lt b.toNat (show 0 < 128 by decide)
      omega
  have h5 := this (pre ++ [last])
  have h6 : 128 ^ (pre ++ [last]).length ≤ 128 ^ 4 := Nat.pow_le_pow_right (by decide) (by simp; omega)
  have h7 : (128 : Nat) ^ 4 = 2 ^ 28 := by decide
  omega

/-- Header decode of one complete received packet. -/
theorem fixedHeaderDecode_received {b1 : UInt8} {body bytes : Bytes} (h : Spec.IsReceivedFrame b1 body bytes) :
    fixedHeaderDecode bytes =
      if !packetHasFlags (b1 >>> 4).toNat && b1 &&& 0xF ≠ 0 then .error .invalidReservedBits
      else .ok ({ packetType := (b1 >>> 4).toNat, remainingLength := body.length, flags := b1 &&& 0xF }, body) := by
  obtain ⟨vs, hv, rfl⟩ := h
  unfold fixedHeaderDecode
  simp only [List.cons_append, readU8, orShort, bind, Except.bind, decodeRL_lengthField hv]
  simp

/-- Conversely a header that decodes is the header of a packet whose length field is legal. -/
theorem fixedHeaderDecode_ok {cur rest : Bytes} {h : FixedHeader} (hd : fixedHeaderDecode cur = .ok (h, rest)) :
    ∃ b1 vs, Spec.LengthField h.remainingLength vs ∧ cur = b1 :: vs ++ rest ∧
      h.remainingLength ≤ rest.length ∧ h.packetType = (b1 >>> 4).toNat ∧ h.flags = b1 &&& 0xF := by
  unfold fixedHeaderDecode at hd
  cases cur with
  | nil => simp [readU8, orShort, bind, Except.bind] at hd
  | cons b1 cur =>
    simp only [readU8, orShort, bind, Except.bind] at hd
    split at hd
    · simp at hd
    · rename_i v hv
      obtain ⟨n, r⟩ := v
      obtain ⟨vs, hvs, rfl⟩ := lengthField_of_decodeRL hv
      simp only at hd
      split at hd
      · simp at hd
      · split at hd
        · simp at hd
        · simp only [Except.ok.injEq, Prod.mk.injEq] at hd
          obtain ⟨rfl, rfl⟩ := hd
          exact ⟨b1, vs, hvs, rfl, by simp only; omega, rfl, rfl⟩

/-- The shortest encoding is unique. -/
theorem varint_eq {n : Nat} {vs : Bytes} (h : Spec.Varint n vs) : vs = encodeRemainingLengthBytes n := by
  induction h with
  | last b h =>
    rw [encodeRemainingLengthBytes, if_pos (by omega), Nat.mod_eq_of_lt h]; simp
  | more b q bs hb hq _ ih =>
    have hlt := b.toNat_lt
    have e1 : (b.toNat - 128 + 128 * q) / 128 = q := by omega
    have e2 : (b.toNat - 128 + 128 * q) % 128 = b.toNat - 128 := by omega
    rw [encodeRemainingLengthBytes, e1, e2, if_neg (by omega), ← ih]
    congr 1
    apply UInt8.toNat_inj.1
    rw [or128 _ (by omega)]; omega

end Mqtt
