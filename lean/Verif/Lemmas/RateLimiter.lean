import Verif.RateLimiter

/-! Arithmetic of the token bucket. -/
namespace Mqtt.RateLimiter

theorem wrap_of_lt {n : Nat} (h : n < two64) : wrap n = n := Nat.mod_eq_of_lt h
theorem wrap_le (n : Nat) : wrap n ≤ n := Nat.mod_le _ _
theorem wrap_lt (n : Nat) : wrap n < two64 := Nat.mod_lt _ (by decide)

theorem wrapSub_of_le {a b : Nat} (h : b ≤ a) (ha : a < two64) : wrapSub a b = a - b := by
  unfold wrapSub wrap
  have : a + (two64 - b) = (a - b) + two64 := by omega
  rw [this, Nat.add_mod_right, Nat.mod_eq_of_lt (by omega)]

theorem mulSat_le (a b : Nat) : mulSat a b ≤ a * b := Nat.min_le_left _ _
theorem mulSat_lt (a b : Nat) : mulSat a b < two64 := by unfold mulSat; omega
theorem mulSat_mono {a b c : Nat} (h : a ≤ b) : mulSat a c ≤ mulSat b c := by
  have := Nat.mul_le_mul_right c h
  unfold mulSat; omega
theorem mulSat_of_lt {a b : Nat} (h : a * b < two64) : mulSat a b = a * b := by unfold mulSat; omega
theorem addSat_of_lt {a b : Nat} (h : a + b < two64) : addSat a b = a + b := by unfold addSat; omega

/-- Tokens an exact bucket generates in the first `e` nanoseconds. -/
def gen (rate e : Nat) : Nat := e * rate / nanos

theorem gen_mono (rate : Nat) {a b : Nat} (h : a ≤ b) : gen rate a ≤ gen rate b :=
  Nat.div_le_div_right (Nat.mul_le_mul_right _ h)

theorem gen_split (rate e : Nat) : gen rate e = e / nanos * rate + e % nanos * rate / nanos := by
  unfold gen
  conv => lhs; rw [← Nat.div_add_mod e nanos]
  rw [Nat.add_mul, show nanos * (e / nanos) * rate = nanos * (e / nanos * rate) by rw [Nat.mul_assoc],
    Nat.mul_add_div (by decide)]

theorem gen_frac_lt {rate f : Nat} (h : f < nanos) (hr : 0 < rate) : f * rate / nanos < rate := by
  rw [Nat.div_lt_iff_lt_mul (by decide), Nat.mul_comm]
  exact (Nat.mul_lt_mul_left hr).2 h

/-- The invariant of a bucket last reset at `t0`. -/
structure Ok (l : Limiter) (t0 : Nat) : Prop where
  pos : 0 < l.rate
  rate : l.rate ≤ 18446744073
  max : l.maxTokens < two64
  tokens : l.tokens ≤ l.maxTokens
  since : t0 ≤ l.last
  frac : l.fracNanos = (l.last - t0) % nanos
  fracTokens : l.fracTokens = l.fracNanos * l.rate / nanos

theorem ok_reset {l : Limiter} {now : Nat} (h1 : 0 < l.rate) (h2 : l.rate ≤ 18446744073) (h3 : l.maxTokens < two64) :
    Ok (reset l now) now where
  pos := h1
  rate := h2
  max := h3
  tokens := Nat.min_le_right _ _
  since := Nat.le_refl _
  frac := by simp [reset]
  fracTokens := by simp [reset]

/-- A 64-bit clock value at which the seconds times the rate still fit 64 bits. Every 64-bit value is one
when the rate is below one token per nanosecond. -/
def Clock (rate now : Nat) : Prop := now < two64 ∧ (now / nanos + 2) * rate ≤ two64

theorem clock_of_lt {rate now : Nat} (hr : rate < nanos) (hn : now < two64) : Clock rate now := by
  refine ⟨hn, ?_⟩
  have h1 : now / nanos + 2 ≤ 18446744075 := by omega
  have h2 : (now / nanos + 2) * rate ≤ 18446744075 * 999999999 := Nat.mul_le_mul h1 (by omega)
  omega

/-- What regeneration does to a bucket satisfying the invariant. -/
theorem regenerateBy_spec {l : Limiter} {t0 now : Nat} (h : Ok l t0) (hn : l.last < now) (hn2 : Clock l.rate now) :
    regenerateBy l now (now - l.last) =
      { l with tokens := min (l.tokens + (gen l.rate (now - t0) - gen l.rate (l.last - t0))) l.maxTokens
               fracNanos := (now - t0) % nanos
               fracTokens := (now - t0) % nanos * l.rate / nanos
               last := now } := by
  obtain ⟨h1, h2, h3, h4, h5, h6, h7⟩ := h
  obtain ⟨rate, mx, ini, tokens, fn, ft, last⟩ := l
  simp only at *
  -- E = time before, d = elapsed
  obtain ⟨E, hE⟩ : ∃ E, last - t0 = E := ⟨_, rfl⟩
  obtain ⟨d, hd⟩ : ∃ d, now - last = d := ⟨_, rfl⟩
  have hnow : now - t0 = E + d := by omega
  rw [hE] at h6
  rw [hE, hnow, hd, gen_split rate (E + d), gen_split rate E, ← h6, ← h7]
  have hf : fn < nanos := by rw [h6]; exact Nat.mod_lt _ (by decide)
  have hdm : d % nanos < nanos := Nat.mod_lt _ (by decide)
  have hdlt : d < two64 := by have := hn2.1; omega
  have hwhole : d / nanos * rate + 2 * rate ≤ two64 := by
    rw [← Nat.add_mul]
    have : d / nanos + 2 ≤ now / nanos + 2 := by omega
    exact Nat.le_trans (Nat.mul_le_mul_right _ this) hn2.2
  have hftlt : ft < rate := h7 ▸ gen_frac_lt hf h1
  have hsum : (E + d) / nanos = E / nanos + d / nanos + (fn + d % nanos) / nanos := by
    have e1 := Nat.div_add_mod E nanos
    have e2 := Nat.div_add_mod d nanos
    rw [← h6] at e1
    have : E + d = nanos * (E / nanos + d / nanos) + (fn + d % nanos) := by
      rw [Nat.mul_add]; omega
    rw [this, Nat.mul_add_div (by decide)]
  have hmod : (E + d) % nanos = (fn + d % nanos) % nanos := by
    rw [h6, Nat.add_mod]
  unfold regenerateBy
  simp only
  rw [mulSat_of_lt (show d / nanos * rate < two64 by omega)]
  by_cases hc : fn + d % nanos < nanos
  · rw [if_pos hc]
    have hprod : (fn + d % nanos) * rate ≤ 999999999 * 18446744073 := Nat.mul_le_mul (by omega) h2
    rw [mulSat_of_lt (show (fn + d % nanos) * rate < two64 by omega)]
    rw [hmod, Nat.mod_eq_of_lt hc, hsum, Nat.div_eq_of_lt hc, Nat.add_zero, Nat.add_mul (E / nanos)]
    have hle : ft ≤ (fn + d % nanos) * rate / nanos := by
      rw [h7]; exact Nat.div_le_div_right (Nat.mul_le_mul_right _ (by omega))
    have hlt : (fn + d % nanos) * rate / nanos < rate := gen_frac_lt hc h1
    generalize (fn + d % nanos) * rate / nanos = nf at *
    rw [wrapSub_of_le hle (by omega)]
    generalize d / nanos * rate = w at *
    generalize E / nanos * rate = v at *
    rw [wrap_of_lt (show w + (nf - ft) < two64 by omega)]
    congr 1
    rw [show v + w + nf - (v + ft) = w + (nf - ft) by omega]
    unfold addSat
    omega
  · rw [if_neg hc]
    have hlt2 : fn + d % nanos - nanos < nanos := by omega
    have hprod : (fn + d % nanos - nanos) * rate ≤ 999999999 * 18446744073 := Nat.mul_le_mul (by omega) h2
    rw [mulSat_of_lt (show (fn + d % nanos - nanos) * rate < two64 by omega)]
    have hm2 : (fn + d % nanos) % nanos = fn + d % nanos - nanos := by
      rw [Nat.mod_eq_sub_mod (by omega), Nat.mod_eq_of_lt hlt2]
    have hd2 : (fn + d % nanos) / nanos = 1 := by
      rw [Nat.div_eq_sub_div (by decide) (by omega), Nat.div_eq_of_lt hlt2]
    rw [hmod, hm2, hsum, hd2, Nat.add_mul, Nat.add_mul, Nat.one_mul]
    have hlt : (fn + d % nanos - nanos) * rate / nanos < rate := gen_frac_lt hlt2 h1
    generalize (fn + d % nanos - nanos) * rate / nanos = nf at *
    rw [wrapSub_of_le (by omega) (by omega)]
    generalize d / nanos * rate = w at *
    generalize E / nanos * rate = v at *
    rw [wrap_of_lt (show w + (rate - ft) < two64 by omega), wrap_of_lt (show w + (rate - ft) + nf < two64 by omega)]
    congr 1
    rw [show v + w + rate + nf - (v + ft) = w + (rate - ft) + nf by omega]
    unfold addSat
    omega

theorem ok_regenerate {l : Limiter} {t0 now : Nat} (h : Ok l t0) (hn2 : Clock l.rate now) : Ok (regenerate l now) t0 := by
  unfold regenerate
  split
  · exact h
  · next hc =>
    rw [regenerateBy_spec h (by omega) hn2]
    exact ⟨h.pos, h.rate, h.max, Nat.min_le_right _ _, by have := h.since; simp only; omega, rfl, rfl⟩

/-- Regeneration, uniformly: the bucket gains the tokens due by the new time. -/
theorem regenerate_spec {l : Limiter} {t0 now : Nat} (h : Ok l t0) (hn2 : Clock l.rate now) :
    (regenerate l now).last = max l.last now ∧ (regenerate l now).rate = l.rate ∧
    (regenerate l now).maxTokens = l.maxTokens ∧
    (regenerate l now).tokens =
      min (l.tokens + (gen l.rate (max l.last now - t0) - gen l.rate (l.last - t0))) l.maxTokens := by
  unfold regenerate
  split
  · next hc =>
    rw [Nat.max_eq_left hc]
    have := h.tokens
    refine ⟨rfl, rfl, rfl, by omega⟩
  · next hc =>
    rw [regenerateBy_spec h (by omega) hn2, Nat.max_eq_right (by omega)]
    exact ⟨rfl, rfl, rfl, rfl⟩

/-- Without any assumption on the clock the invariant is kept and regeneration never adds too much. -/
theorem regenerateBy_le {l : Limiter} {t0 now : Nat} (h : Ok l t0) (hn : l.last < now) :
    Ok (regenerateBy l now (now - l.last)) t0 ∧
    (regenerateBy l now (now - l.last)).last = now ∧
    (regenerateBy l now (now - l.last)).rate = l.rate ∧
    (regenerateBy l now (now - l.last)).maxTokens = l.maxTokens ∧
    (regenerateBy l now (now - l.last)).tokens ≤
      l.tokens + (gen l.rate (now - t0) - gen l.rate (l.last - t0)) := by
  obtain ⟨h1, h2, h3, h4, h5, h6, h7⟩ := h
  obtain ⟨rate, mx, ini, tokens, fn, ft, last⟩ := l
  simp only at *
  obtain ⟨E, hE⟩ : ∃ E, last - t0 = E := ⟨_, rfl⟩
  obtain ⟨d, hd⟩ : ∃ d, now - last = d := ⟨_, rfl⟩
  have hnow : now - t0 = E + d := by omega
  rw [hE] at h6
  rw [hE, hnow, hd, gen_split rate (E + d), gen_split rate E, ← h6, ← h7]
  have hf : fn < nanos := by rw [h6]; exact Nat.mod_lt _ (by decide)
  have hdm : d % nanos < nanos := Nat.mod_lt _ (by decide)
  have hftlt : ft < rate := h7 ▸ gen_frac_lt hf h1
  have hsum : (E + d) / nanos = E / nanos + d / nanos + (fn + d % nanos) / nanos := by
    have e1 := Nat.div_add_mod E nanos
    have e2 := Nat.div_add_mod d nanos
    rw [← h6] at e1
    have : E + d = nanos * (E / nanos + d / nanos) + (fn + d % nanos) := by
      rw [Nat.mul_add]; omega
    rw [this, Nat.mul_add_div (by decide)]
  have hmod : (E + d) % nanos = (fn + d % nanos) % nanos := by
    rw [h6, Nat.add_mod]
  unfold regenerateBy
  simp only
  have hw := mulSat_le (d / nanos) rate
  generalize mulSat (d / nanos) rate = w at hw ⊢
  by_cases hc : fn + d % nanos < nanos
  · simp only [if_pos hc]
    have hprod : (fn + d % nanos) * rate ≤ 999999999 * 18446744073 := Nat.mul_le_mul (by omega) h2
    rw [mulSat_of_lt (show (fn + d % nanos) * rate < two64 by omega)]
    refine ⟨⟨h1, h2, h3, Nat.min_le_right _ _, by simp only; omega, ?_, rfl⟩, trivial, trivial, trivial, ?_⟩
    · simp only; rw [hnow, hmod, Nat.mod_eq_of_lt hc]
    rw [hmod, Nat.mod_eq_of_lt hc, hsum, Nat.div_eq_of_lt hc, Nat.add_zero, Nat.add_mul (E / nanos)]
    have hle : ft ≤ (fn + d % nanos) * rate / nanos := by
      rw [h7]; exact Nat.div_le_div_right (Nat.mul_le_mul_right _ (by omega))
    have hlt : (fn + d % nanos) * rate / nanos < rate := gen_frac_lt hc h1
    generalize (fn + d % nanos) * rate / nanos = nf at *
    rw [wrapSub_of_le hle (by omega)]
    generalize d / nanos * rate = w' at *
    generalize E / nanos * rate = v at *
    have := wrap_le (w + (nf - ft))
    unfold addSat
    omega
  · simp only [if_neg hc]
    have hlt2 : fn + d % nanos - nanos < nanos := by omega
    have hprod : (fn + d % nanos - nanos) * rate ≤ 999999999 * 18446744073 := Nat.mul_le_mul (by omega) h2
    rw [mulSat_of_lt (show (fn + d % nanos - nanos) * rate < two64 by omega)]
    have hm2 : (fn + d % nanos) % nanos = fn + d % nanos - nanos := by
      rw [Nat.mod_eq_sub_mod (by omega), Nat.mod_eq_of_lt hlt2]
    have hd2 : (fn + d % nanos) / nanos = 1 := by
      rw [Nat.div_eq_sub_div (by decide) (by omega), Nat.div_eq_of_lt hlt2]
    refine ⟨⟨h1, h2, h3, Nat.min_le_right _ _, by simp only; omega, ?_, rfl⟩, trivial, trivial, trivial, ?_⟩
    · simp only; rw [hnow, hmod, hm2]
    rw [hmod, hm2, hsum, hd2, Nat.add_mul, Nat.add_mul, Nat.one_mul]
    have hlt : (fn + d % nanos - nanos) * rate / nanos < rate := gen_frac_lt hlt2 h1
    generalize (fn + d % nanos - nanos) * rate / nanos = nf at *
    rw [wrapSub_of_le (by omega) (by omega)]
    generalize d / nanos * rate = w' at *
    generalize E / nanos * rate = v at *
    have := wrap_le (w + (rate - ft))
    have := wrap_le (wrap (w + (rate - ft)) + nf)
    unfold addSat
    omega

theorem regenerate_le {l : Limiter} {t0 now : Nat} (h : Ok l t0) :
    Ok (regenerate l now) t0 ∧ (regenerate l now).last = max l.last now ∧ (regenerate l now).rate = l.rate ∧
    (regenerate l now).maxTokens = l.maxTokens ∧
    (regenerate l now).tokens ≤ l.tokens + (gen l.rate (max l.last now - t0) - gen l.rate (l.last - t0)) := by
  unfold regenerate
  split
  · next hc =>
    rw [Nat.max_eq_left hc]
    exact ⟨h, rfl, rfl, rfl, by omega⟩
  · next hc =>
    rw [Nat.max_eq_right (by omega)]
    exact regenerateBy_le h (by omega)

/-! ### Wait -/

/-- Rounded-up division. -/
def ceilDiv (a b : Nat) : Nat := if a % b ≠ 0 then a / b + 1 else a / b

theorem le_iff_ceilDiv {a b x : Nat} (hb : 0 < b) : a ≤ x * b ↔ ceilDiv a b ≤ x := by
  unfold ceilDiv
  have h := Nat.div_add_mod a b
  have hm := Nat.mod_lt a hb
  split
  · next hne =>
    constructor
    · intro hx
      have : a / b < x := by
        rw [Nat.div_lt_iff_lt_mul hb]
        rcases Nat.lt_or_ge a (x * b) with h1 | h1
        · exact h1
        · have : a = x * b := by omega
          rw [this, Nat.mul_mod_left] at hne
          exact absurd rfl hne
      exact this
    · intro hx
      have : (a / b + 1) * b ≤ x * b := Nat.mul_le_mul_right _ hx
      rw [Nat.add_mul, Nat.one_mul, Nat.mul_comm] at this
      omega
  · next he =>
    have he' : a % b = 0 := by omega
    constructor
    · intro hx
      rw [Nat.div_le_iff_le_mul_add_pred hb]
      rw [Nat.mul_comm] at hx; omega
    · intro hx
      have : a / b * b ≤ x * b := Nat.mul_le_mul_right _ hx
      rw [Nat.mul_comm] at this; omega

theorem ceilDiv_add_mul (a b k : Nat) (hb : 0 < b) : ceilDiv (b * k + a) b = k + ceilDiv a b := by
  unfold ceilDiv
  rw [Nat.mul_add_mod, Nat.mul_add_div hb]
  split <;> omega

/-- Number of nanoseconds since the reset after which an exact bucket has generated `k` tokens. -/
theorem gen_ge_iff {rate x k : Nat} (hr : 0 < rate) : k ≤ gen rate x ↔ ceilDiv (k * nanos) rate ≤ x := by
  unfold gen
  rw [Nat.le_div_iff_mul_le (by decide), le_iff_ceilDiv hr]

theorem wait_case2 (a b m fn E : Nat) (hf : fn < nanos) (ha : a ≤ 18446744070000000000) (hb : b < nanos)
    (h6 : fn = E % nanos) :
    (if m ≠ 0 then wrap (wrap (wrap (nanos - fn + a) + b) + 1) else wrap (wrap (nanos - fn + a) + b)) =
      nanos * (E / nanos) + (nanos + a + (if m ≠ 0 then b + 1 else b)) - E := by
  rw [wrap_of_lt (show nanos - fn + a < two64 by omega), wrap_of_lt (show nanos - fn + a + b < two64 by omega)]
  by_cases hne : m ≠ 0
  · rw [if_pos hne, if_pos hne, wrap_of_lt (show nanos - fn + a + b + 1 < two64 by omega)]; omega
  · rw [if_neg hne, if_neg hne]; omega

/-- The computed wait is exact on a bucket satisfying the invariant. -/
theorem waitFor_spec {l : Limiter} {t0 n : Nat} (h : Ok l t0) (hn : l.tokens < n) (hbig : n ≤ 18446744070 * l.rate) :
    waitFor l n = some (ceilDiv ((gen l.rate (l.last - t0) + (n - l.tokens)) * nanos) l.rate - (l.last - t0)) ∧
    l.last - t0 < ceilDiv ((gen l.rate (l.last - t0) + (n - l.tokens)) * nanos) l.rate := by
  have hstrict : l.last - t0 < ceilDiv ((gen l.rate (l.last - t0) + (n - l.tokens)) * nanos) l.rate := by
    rcases Nat.lt_or_ge (l.last - t0) (ceilDiv ((gen l.rate (l.last - t0) + (n - l.tokens)) * nanos) l.rate) with h1 | h1
    · exact h1
    · have := (gen_ge_iff h.pos).2 h1
      omega
  refine ⟨?_, hstrict⟩
  obtain ⟨h1, h2, h3, h4, h5, h6, h7⟩ := h
  obtain ⟨rate, mx, ini, tokens, fn, ft, last⟩ := l
  simp only at *
  obtain ⟨E, hE⟩ : ∃ E, last - t0 = E := ⟨_, rfl⟩
  rw [hE] at h6 hstrict ⊢
  have hf : fn < nanos := by rw [h6]; exact Nat.mod_lt _ (by decide)
  have hftlt : ft < rate := h7 ▸ gen_frac_lt hf h1
  obtain ⟨D, hD⟩ : ∃ D, n - tokens = D := ⟨_, rfl⟩
  -- reduce to the fractional part
  have key : ceilDiv ((gen rate E + (n - tokens)) * nanos) rate = nanos * (E / nanos) + ceilDiv ((ft + D) * nanos) rate := by
    rw [gen_split, ← h6, ← h7, hD]
    have : (E / nanos * rate + ft + D) * nanos = rate * (nanos * (E / nanos)) + (ft + D) * nanos := by
      rw [Nat.add_assoc, Nat.add_mul]
      congr 1
      rw [Nat.mul_comm (E / nanos) rate, Nat.mul_assoc, Nat.mul_comm (E / nanos)]
    rw [this, ceilDiv_add_mul _ _ _ h1]
  have hEq := Nat.div_add_mod E nanos
  rw [← h6] at hEq
  rw [key] at hstrict ⊢
  unfold waitFor
  simp only
  rw [if_neg (by omega), if_neg (by omega), if_neg (by omega), hD]
  by_cases hc : D < rate - ft
  · rw [if_pos hc]
    refine congrArg some ?_
    have hlt : (ft + D) * nanos < 18446744073000000000 := by clear hstrict key hbig; omega
    rw [addSat_of_lt (show D + ft < two64 by omega), Nat.add_comm D ft,
      mulSat_of_lt (show (ft + D) * nanos < two64 by omega)]
    have hdle : (ft + D) * nanos / rate ≤ (ft + D) * nanos := Nat.div_le_self _ _
    unfold ceilDiv at hstrict ⊢
    clear key hbig
    generalize (ft + D) * nanos / rate = q at *
    generalize (ft + D) * nanos % rate = m at *
    generalize (ft + D) * nanos = z at *
    by_cases hne : m ≠ 0
    · rw [if_pos hne] at hstrict
      rw [if_pos hne, if_pos hne]
      rw [wrapSub_of_le (show fn ≤ q by omega) (show q < two64 by omega), wrap_of_lt (show q - fn + 1 < two64 by omega)]
      omega
    · rw [if_neg hne] at hstrict
      rw [if_neg hne, if_neg hne]
      rw [wrapSub_of_le (show fn ≤ q by omega) (show q < two64 by omega)]
      omega
  · rw [if_neg hc]
    refine congrArg some ?_
    have hDn : D ≤ n := by omega
    obtain ⟨D', hD'⟩ : ∃ D', D - (rate - ft) = D' := ⟨_, rfl⟩
    rw [hD']
    have hDD : ft + D = rate + D' := by omega
    have hmul : (ft + D) * nanos = rate * (nanos + nanos * (D' / rate)) + D' % rate * nanos := by
      have e := Nat.div_add_mod D' rate
      rw [hDD]
      conv => lhs; rw [← e]
      rw [Nat.add_mul, Nat.add_mul, Nat.mul_add, Nat.add_assoc]
      congr 2
      rw [Nat.mul_assoc, Nat.mul_comm (D' / rate)]
    rw [hmul, ceilDiv_add_mul _ _ _ h1]
    have hq : D' / rate ≤ 18446744070 := by
      rw [← Nat.mul_div_cancel 18446744070 h1]
      exact Nat.div_le_div_right (by omega)
    have hqm' : D' / rate * nanos ≤ 18446744070000000000 := by clear hstrict key hbig hmul; omega
    have hrem : D' % rate < rate := Nat.mod_lt _ h1
    have hremn : D' % rate * nanos < 18446744073000000000 := by clear hstrict key hbig; omega
    have hrq : D' % rate * nanos / rate < nanos := by
      rw [Nat.div_lt_iff_lt_mul h1, Nat.mul_comm nanos]
      omega
    rw [mulSat_of_lt (Nat.lt_of_le_of_lt hqm' (by decide)), mulSat_of_lt (Nat.lt_trans hremn (by decide)),
      Nat.mul_comm nanos (D' / rate)]
    exact wait_case2 _ _ _ fn E hf hqm' hrq h6

end Mqtt.RateLimiter
