import Verif.Lemmas.RateLimiter

/-! C14, C15, C16: the token bucket rate limiter. -/
namespace Mqtt.Props
open Mqtt.RateLimiter

/-! ## Histories -/

/-- A call on the limiter. -/
inductive BucketOp
  | can (n : Nat)
  | take (n : Nat)
  | wait (n : Nat)

/-- One call at clock value `now`; the number of tokens handed out, and whether the request was granted. -/
def bucketStep (l : Limiter) (now : Nat) : BucketOp → Limiter × Nat × Bool
  | .can n => ((canTake l now n).1, 0, (canTake l now n).2)
  | .take n => ((take l now n).1, if (take l now n).2 then n else 0, (take l now n).2)
  | .wait n => ((computeWait l now n).1, 0, (computeWait l now n).2 = some 0)

/-- A sequence of calls, each with the clock value it reads. -/
abbrev Calls := List (Nat × BucketOp)

/-- The bucket after a sequence of calls. -/
def bucketAfter (l : Limiter) : Calls → Limiter
  | [] => l
  | (now, op) :: rest => bucketAfter (bucketStep l now op).1 rest

/-- The tokens handed out over a sequence of calls. -/
def tokensTaken (l : Limiter) : Calls → Nat
  | [] => 0
  | (now, op) :: rest => (bucketStep l now op).2.1 + tokensTaken (bucketStep l now op).1 rest

/-- The answers given to a sequence of calls. -/
def answers (l : Limiter) : Calls → List Bool
  | [] => []
  | (now, op) :: rest => (bucketStep l now op).2.2 :: answers (bucketStep l now op).1 rest

/-- The largest clock value seen. -/
def latest (t : Nat) : Calls → Nat
  | [] => t
  | (now, _) :: rest => latest (max t now) rest

theorem latest_ge (t : Nat) (cs : Calls) : t ≤ latest t cs := by
  induction cs generalizing t with
  | nil => exact Nat.le_refl _
  | cons c cs ih => exact Nat.le_trans (Nat.le_max_left t c.1) (ih _)

theorem bucketAfter_append (l : Limiter) (a b : Calls) : bucketAfter l (a ++ b) = bucketAfter (bucketAfter l a) b := by
  induction a generalizing l with
  | nil => rfl
  | cons c a ih => exact ih _

theorem tokensTaken_append (l : Limiter) (a b : Calls) :
    tokensTaken l (a ++ b) = tokensTaken l a + tokensTaken (bucketAfter l a) b := by
  induction a generalizing l with
  | nil => simp [tokensTaken, bucketAfter]
  | cons c a ih =>
    simp only [List.cons_append, tokensTaken, bucketAfter, ih]
    omega

theorem latest_append (t : Nat) (a b : Calls) : latest t (a ++ b) = latest (latest t a) b := by
  induction a generalizing t with
  | nil => rfl
  | cons c a ih => exact ih _

/-- A call regenerates and then removes what it hands out. -/
theorem bucketStep_spec (l : Limiter) (now : Nat) (op : BucketOp) :
    (bucketStep l now op).2.1 ≤ (regenerate l now).tokens ∧
    (bucketStep l now op).1 =
      { regenerate l now with tokens := (regenerate l now).tokens - (bucketStep l now op).2.1 } := by
  cases op with
  | can n => exact ⟨Nat.zero_le _, rfl⟩
  | wait n => exact ⟨Nat.zero_le _, rfl⟩
  | take n =>
    simp only [bucketStep, take]
    split
    · exact ⟨Nat.zero_le _, rfl⟩
    · next h => exact ⟨by simp only [if_pos]; omega, rfl⟩

theorem ok_taken {l : Limiter} {t0 k : Nat} (h : Ok l t0) : Ok { l with tokens := l.tokens - k } t0 :=
  ⟨h.pos, h.rate, h.max, by have := h.tokens; simp only; omega, h.since, h.frac, h.fracTokens⟩

theorem bucketStep_le {l : Limiter} {t0 now : Nat} (h : Ok l t0) (op : BucketOp) :
    Ok (bucketStep l now op).1 t0 ∧ (bucketStep l now op).1.last = max l.last now ∧
    (bucketStep l now op).1.rate = l.rate ∧ (bucketStep l now op).1.maxTokens = l.maxTokens ∧
    (bucketStep l now op).1.tokens + (bucketStep l now op).2.1 ≤
      l.tokens + (gen l.rate (max l.last now - t0) - gen l.rate (l.last - t0)) := by
  obtain ⟨h1, h2, h3, h4, h5⟩ := regenerate_le (now := now) h
  obtain ⟨hs1, hs2⟩ := bucketStep_spec l now op
  rw [hs2]
  refine ⟨ok_taken h1, h2, h3, h4, ?_⟩
  simp only
  omega

theorem run_le {l : Limiter} {t0 : Nat} (h : Ok l t0) (cs : Calls) :
    Ok (bucketAfter l cs) t0 ∧ (bucketAfter l cs).last = latest l.last cs ∧ (bucketAfter l cs).rate = l.rate ∧
    (bucketAfter l cs).maxTokens = l.maxTokens ∧
    (bucketAfter l cs).tokens + tokensTaken l cs ≤
      l.tokens + (gen l.rate (latest l.last cs - t0) - gen l.rate (l.last - t0)) := by
  induction cs generalizing l with
  | nil => exact ⟨h, rfl, rfl, rfl, by simp [bucketAfter, tokensTaken, latest]⟩
  | cons c cs ih =>
    obtain ⟨now, op⟩ := c
    obtain ⟨h1, h2, h3, h4, h5⟩ := bucketStep_le (now := now) h op
    obtain ⟨i1, i2, i3, i4, i5⟩ := ih h1
    refine ⟨i1, i2.trans (by rw [h2]; rfl), i3.trans h3, i4.trans h4, ?_⟩
    simp only [bucketAfter, tokensTaken, latest]
    rw [h2, h3] at i5
    have m1 := gen_mono l.rate (a := l.last - t0) (b := max l.last now - t0) (by omega)
    have m2 := gen_mono l.rate (a := max l.last now - t0) (b := latest (max l.last now) cs - t0)
      (by have := latest_ge (max l.last now) cs; omega)
    omega

/-! ## C14 -/

/-- Over an interval the exact count grows by less than one token more than the rate times the elapsed time. -/
theorem gen_interval (rate a b : Nat) (h : a ≤ b) :
    (gen rate b - gen rate a) * 1000000000 < rate * (b - a) + 1000000000 := by
  unfold gen
  obtain ⟨d, rfl⟩ : ∃ d, b = a + d := ⟨b - a, by omega⟩
  rw [show a + d - a = d by omega, Nat.add_mul, Nat.mul_comm d rate]
  generalize a * rate = x
  generalize rate * d = y
  omega

/-- **C14, rates up to 18446744073 tokens per second.** A limiter created with `rate` tokens per second and burst `burst` (`initial` tokens at the start)
is used by any calls at any clock values, forwards or backwards. `before` are the calls before some
interval; the interval starts with a call reading `now` and goes on with `during`. Then
* the tokens handed out in the interval exceed the burst plus the rate times the time elapsed in it by less
  than one token;
* the tokens handed out since creation are at most the initial ones plus the rate times the elapsed time,
  rounded down;
* the bucket never holds more than the burst. -/
theorem C14_bound_partial (rate burst initial t0 : Nat) (hr : rate ≤ 18446744073) (hb : burst < two64) (l : Limiter)
    (hl : init rate burst initial t0 = some l) (before during : Calls) (now : Nat) (op : BucketOp) :
    tokensTaken (bucketAfter l before) ((now, op) :: during) * 1000000000 <
      burst * 1000000000 +
        rate * (latest t0 (before ++ (now, op) :: during) - latest t0 (before ++ [(now, op)])) + 1000000000 ∧
    tokensTaken l (before ++ (now, op) :: during) ≤
      min initial burst + rate * (latest t0 (before ++ (now, op) :: during) - t0) / 1000000000 ∧
    (bucketAfter l before).tokens ≤ burst := by
  unfold init at hl
  split at hl
  · exact absurd hl (by simp)
  next hz =>
  simp only [Option.some.injEq] at hl
  have hok : Ok l t0 := by
    rw [← hl]; exact ok_reset (by simp only; omega) hr hb
  have hlast : l.last = t0 := by rw [← hl]; rfl
  have hrate : l.rate = rate := by rw [← hl]; rfl
  have hmax : l.maxTokens = burst := by rw [← hl]; rfl
  have htok : l.tokens = min initial burst := by rw [← hl]; rfl
  obtain ⟨b1, b2, b3, b4, b5⟩ := run_le hok before
  refine ⟨?_, ?_, by have := b1.tokens; omega⟩
  · obtain ⟨s1, s2⟩ := bucketStep_spec (bucketAfter l before) now op
    obtain ⟨g1, g2, g3, g4, g5⟩ := regenerate_le (now := now) b1
    obtain ⟨k1, k2, k3, k4, k5⟩ := bucketStep_le (now := now) b1 op
    obtain ⟨d1, d2, d3, d4, d5⟩ := run_le k1 during
    simp only [tokensTaken]
    have ht : (bucketStep (bucketAfter l before) now op).1.tokens + (bucketStep (bucketAfter l before) now op).2.1
        ≤ burst := by
      rw [s2]; simp only
      have := g1.tokens
      omega
    rw [k2, k3, b2, b3, hlast, hrate] at d5
    rw [latest_append, latest_append]
    simp only [latest]
    have hge := latest_ge (max (latest t0 before) now) during
    have hge0 := latest_ge t0 before
    have hi := gen_interval rate (max (latest t0 before) now - t0) (latest (max (latest t0 before) now) during - t0)
      (by omega)
    rw [show latest (max (latest t0 before) now) during - t0 - (max (latest t0 before) now - t0) =
      latest (max (latest t0 before) now) during - max (latest t0 before) now by omega] at hi
    exact Nat.lt_of_le_of_lt (Nat.mul_le_mul_right _ (show _ ≤ burst + (gen rate
      (latest (max (latest t0 before) now) during - t0) - gen rate (max (latest t0 before) now - t0)) by omega))
      (by rw [Nat.add_mul, Nat.add_assoc]; exact Nat.add_lt_add_left hi _)
  · obtain ⟨d1, d2, d3, d4, d5⟩ := run_le hok (before ++ (now, op) :: during)
    rw [hlast, hrate, htok] at d5
    unfold gen at d5
    rw [Nat.mul_comm rate]
    omega

/-- The bound of C14 is tight: a bucket holding one token refilled at one token per second can hand out two
tokens within a tenth of a second. -/
theorem C14_tight : ∃ l, init 1 1 1 0 = some l ∧
    tokensTaken l [(900000000, .take 1), (1000000000, .take 1)] = 2 :=
  ⟨_, rfl, by decide +kernel⟩

/-- Beyond about 1.8e10 tokens per second the interval bound fails: the part of a second is multiplied with
saturation (90, 113) and what was lost is handed out at the end of the second. Here the rate is 1000 tokens
per nanosecond and the burst a million; one nanosecond lets two million tokens through. -/
theorem C14_violated_rate : ∃ l, init 1000000000000 1000000 1000000 0 = some l ∧
    tokensTaken (bucketAfter l [(999999998, .can 0)]) [(999999999, .take 1000000), (1000000000, .take 1000000)] =
      2000000 ∧
    1000000 + 1000000000000 * (1000000000 - 999999999) / 1000000000 + 1 < 2000000 :=
  ⟨_, rfl, by decide +kernel, by decide⟩

/-! ## C15 -/

/-- The exact bucket: it holds `avail` tokens at time `t`. -/
structure Exact where
  avail : Nat
  t : Nat

/-- Let time pass up to `now`. -/
def Exact.pass (rate burst t0 : Nat) (e : Exact) (now : Nat) : Exact :=
  ⟨min burst (e.avail + (rate * (max e.t now - t0) / 1000000000 - rate * (e.t - t0) / 1000000000)), max e.t now⟩

/-- What the exact bucket answers. -/
def Exact.answers (rate burst t0 : Nat) (e : Exact) : Calls → List Bool
  | [] => []
  | (now, .can n) :: rest =>
    decide (n ≤ (e.pass rate burst t0 now).avail) :: Exact.answers rate burst t0 (e.pass rate burst t0 now) rest
  | (now, .wait n) :: rest =>
    decide (n ≤ (e.pass rate burst t0 now).avail) :: Exact.answers rate burst t0 (e.pass rate burst t0 now) rest
  | (now, .take n) :: rest =>
    if n ≤ (e.pass rate burst t0 now).avail then
      true :: Exact.answers rate burst t0 ⟨(e.pass rate burst t0 now).avail - n, max e.t now⟩ rest
    else false :: Exact.answers rate burst t0 (e.pass rate burst t0 now) rest

/-- All calls read clock values in range, and wait only for amounts whose wait fits 64 bits. -/
def InRange (rate : Nat) (cs : Calls) : Prop :=
  ∀ c ∈ cs, Clock rate c.1 ∧ ∀ n, c.2 = .wait n → n ≤ 18446744070 * rate

/-- No call finds the bucket full. -/
def NeverFull (l : Limiter) : Calls → Prop
  | [] => True
  | (now, op) :: rest => (regenerate l now).tokens < l.maxTokens ∧ NeverFull (bucketStep l now op).1 rest

theorem wait_zero_iff {l : Limiter} {t0 n : Nat} (h : Ok l t0) (hn : n ≤ 18446744070 * l.rate) :
    waitFor l n = some 0 ↔ n ≤ l.tokens := by
  constructor
  · intro hw
    rcases Nat.lt_or_ge l.tokens n with h1 | h1
    · obtain ⟨e1, e2⟩ := waitFor_spec h h1 hn
      rw [e1, Option.some.injEq] at hw
      omega
    · exact h1
  · intro hle
    unfold waitFor
    rw [if_pos hle]

theorem answers_exact {l : Limiter} {t0 : Nat} (h : Ok l t0) (e : Exact) (he : e = ⟨l.tokens, l.last⟩) (cs : Calls)
    (hin : InRange l.rate cs) :
    answers l cs = Exact.answers l.rate l.maxTokens t0 e cs := by
  induction cs generalizing l e with
  | nil => rfl
  | cons c cs ih =>
    obtain ⟨now, op⟩ := c
    obtain ⟨hclock, hwait⟩ := hin _ (List.mem_cons_self ..)
    have hrest : InRange l.rate cs := fun c hc => hin c (List.mem_cons_of_mem _ hc)
    have hok := ok_regenerate h hclock
    obtain ⟨r1, r2, r3, r4⟩ := regenerate_spec h hclock
    have hp : e.pass l.rate l.maxTokens t0 now = ⟨(regenerate l now).tokens, (regenerate l now).last⟩ := by
      rw [he, r1, r4, Nat.min_comm]
      simp only [Exact.pass, gen, Nat.mul_comm l.rate]
    have ih1 := ih hok _ rfl (by rw [r2]; exact hrest)
    rw [r2, r3] at ih1
    cases op with
    | can n =>
      simp only [answers, Exact.answers, bucketStep, canTake, hp]
      rw [ih1]
    | wait n =>
      simp only [answers, Exact.answers, bucketStep, computeWait, hp]
      rw [ih1]
      have := wait_zero_iff (n := n) hok (by rw [r2]; exact hwait n rfl)
      simp only [this]
    | take n =>
      simp only [answers, Exact.answers, bucketStep, take, hp]
      by_cases hn : (regenerate l now).tokens < n
      · simp only [if_pos hn, if_neg (show ¬ n ≤ (regenerate l now).tokens by omega)]
        rw [ih1]
      · simp only [if_neg hn, if_pos (show n ≤ (regenerate l now).tokens by omega)]
        have ih2 := ih (ok_taken (k := n) hok) _ rfl (by simp only; rw [r2]; exact hrest)
        simp only at ih2
        rw [ih2, r1, he]
        simp only [r2, r3]

theorem unclipped_exact {l : Limiter} {t0 : Nat} (h : Ok l t0) (cs : Calls) (hin : InRange l.rate cs)
    (hf : NeverFull l cs) :
    (bucketAfter l cs).tokens + tokensTaken l cs =
      l.tokens + (gen l.rate (latest l.last cs - t0) - gen l.rate (l.last - t0)) := by
  induction cs generalizing l with
  | nil => simp [bucketAfter, tokensTaken, latest]
  | cons c cs ih =>
    obtain ⟨now, op⟩ := c
    obtain ⟨hclock, hwait⟩ := hin _ (List.mem_cons_self ..)
    have hrest : InRange l.rate cs := fun c hc => hin c (List.mem_cons_of_mem _ hc)
    obtain ⟨hf1, hf2⟩ := hf
    obtain ⟨r1, r2, r3, r4⟩ := regenerate_spec h hclock
    obtain ⟨s1, s2⟩ := bucketStep_spec l now op
    obtain ⟨k1, k2, k3, k4, k5⟩ := bucketStep_le (now := now) h op
    have hi := ih k1 (by rw [k3]; exact hrest) hf2
    rw [k2, k3] at hi
    simp only [bucketAfter, tokensTaken, latest]
    have hst : (bucketStep l now op).1.tokens + (bucketStep l now op).2.1 = (regenerate l now).tokens := by
      rw [s2]; simp only; omega
    have m1 := gen_mono l.rate (a := l.last - t0) (b := max l.last now - t0) (by omega)
    have m2 := gen_mono l.rate (a := max l.last now - t0) (b := latest (max l.last now) cs - t0)
      (by have := latest_ge (max l.last now) cs; omega)
    have r4' : (regenerate l now).tokens = l.tokens + (gen l.rate (max l.last now - t0) - gen l.rate (l.last - t0)) := by
      simp only at r4 hf1; omega
    omega

/-- **C15, rates up to 18446744073 tokens per second.** Whatever the polls and takes and however they split
the elapsed time, a limiter created at `t0` answers every call as the exact bucket does; and as long as no
call finds it full, the tokens in the bucket plus those handed out are the initial ones plus
`floor(rate * elapsed / 10^9)`. -/
theorem C15_no_drift_partial (rate burst initial t0 : Nat) (hr : rate ≤ 18446744073) (hb : burst < two64)
    (l : Limiter) (hl : init rate burst initial t0 = some l) (cs : Calls) (hin : InRange rate cs) :
    answers l cs = Exact.answers rate burst t0 ⟨min initial burst, t0⟩ cs ∧
    (NeverFull l cs → (bucketAfter l cs).tokens + tokensTaken l cs =
      min initial burst + rate * (latest t0 cs - t0) / 1000000000) := by
  unfold init at hl
  split at hl
  · exact absurd hl (by simp)
  next hz =>
  simp only [Option.some.injEq] at hl
  have hok : Ok l t0 := by
    rw [← hl]; exact ok_reset (by simp only; omega) hr hb
  have hlast : l.last = t0 := by rw [← hl]; rfl
  have hrate : l.rate = rate := by rw [← hl]; rfl
  have hmax : l.maxTokens = burst := by rw [← hl]; rfl
  have htok : l.tokens = min initial burst := by rw [← hl]; rfl
  constructor
  · have := answers_exact hok ⟨l.tokens, l.last⟩ rfl cs (by rw [hrate]; exact hin)
    rw [hrate, hmax, htok, hlast] at this
    exact this
  · intro hf
    have := unclipped_exact hok cs (by rw [hrate]; exact hin) hf
    rw [hrate, htok, hlast] at this
    rw [this]
    simp [gen, Nat.mul_comm]

/-- Below one token per nanosecond every 64-bit clock value is in range. -/
theorem C15_range (rate now : Nat) (hr : rate < 1000000000) (hn : now < two64) : Clock rate now :=
  clock_of_lt hr hn

/-- Above that rate tokens do get lost: with 2^64 - 1 tokens per second the tokens of the second second are
saturated away by the wrap at 96, and a full second regenerates nothing. -/
theorem C15_violated : ∃ l, init 18446744073709551615 1000000000000 0 0 = some l ∧
    (bucketAfter l [(2000000001, .can 0)]).tokens = 18446744072 ∧
    18446744072 < 1000000000000 ∧
    1000000000000 < 18446744073709551615 * 2000000001 / 1000000000 :=
  ⟨_, rfl, by decide +kernel, by decide, by decide +kernel⟩

/-! ## C16 -/

/-- **C16, rates up to 18446744073 tokens per second and waits that fit 64 bits.** In every state reached from creation by any calls at any clock values, asking at `now` (not
before the last call) for the wait for `n` tokens (at most the burst)
* never trips an assertion;
* answers 0 exactly when `n` tokens can be taken at `now`;
* otherwise answers a positive `w` such that taking `n` tokens fails at any time before `now + w` and
  succeeds at any time from `now + w` on, if no other call intervenes. -/
theorem C16_wait_partial (rate burst initial t0 : Nat) (hr : rate ≤ 18446744073) (hb : burst < two64) (l : Limiter)
    (hl : init rate burst initial t0 = some l) (cs : Calls) (now n : Nat)
    (hmono : latest t0 cs ≤ now) (hnow : Clock rate now) (hn : n ≤ burst) (hfit : n ≤ 18446744070 * rate) :
    ∃ w, (computeWait (bucketAfter l cs) now n).2 = some w ∧
      (w = 0 ↔ (take (bucketAfter l cs) now n).2 = true) ∧
      ∀ later, now ≤ later → Clock rate later →
        ((take (computeWait (bucketAfter l cs) now n).1 later n).2 = true ↔ now + w ≤ later) := by
  unfold init at hl
  split at hl
  · exact absurd hl (by simp)
  next hz =>
  simp only [Option.some.injEq] at hl
  have hok : Ok l t0 := by
    rw [← hl]; exact ok_reset (by simp only; omega) hr hb
  have hlast : l.last = t0 := by rw [← hl]; rfl
  have hrate : l.rate = rate := by rw [← hl]; rfl
  have hmax : l.maxTokens = burst := by rw [← hl]; rfl
  obtain ⟨b1, b2, b3, b4, b5⟩ := run_le hok cs
  rw [hlast] at b2
  rw [hrate] at b3
  rw [hmax] at b4
  have hok2 := ok_regenerate (now := now) b1 (by rw [b3]; exact hnow)
  obtain ⟨r1, r2, r3, r4⟩ := regenerate_spec (now := now) b1 (by rw [b3]; exact hnow)
  have hlast2 : (regenerate (bucketAfter l cs) now).last = now := by rw [r1, b2]; omega
  have htake : (take (bucketAfter l cs) now n).2 = true ↔ n ≤ (regenerate (bucketAfter l cs) now).tokens := by
    unfold take; split
    · simp only [Bool.false_eq_true, false_iff]; omega
    · simp only [true_iff]; omega
  simp only [computeWait]
  generalize hgm : regenerate (bucketAfter l cs) now = m at *
  rw [b3] at r2
  rw [b4] at r3
  have hlater : ∀ later, now ≤ later → Clock rate later →
      ((take m later n).2 = true ↔ n ≤ m.tokens + (gen rate (later - t0) - gen rate (now - t0))) := by
    intro later hle hc
    obtain ⟨q1, q2, q3, q4⟩ := regenerate_spec (now := later) hok2 (by rw [r2]; exact hc)
    rw [hlast2, r2, r3, Nat.max_eq_right hle] at q4
    unfold take; split
    · simp only [Bool.false_eq_true, false_iff]; omega
    · simp only [true_iff]; omega
  rcases Nat.lt_or_ge m.tokens n with hlt | hge
  · obtain ⟨e1, e2⟩ := waitFor_spec hok2 hlt (by rw [r2]; exact hfit)
    refine ⟨_, e1, ?_, ?_⟩
    · rw [htake]
      omega
    · intro later hle hc
      rw [hlater later hle hc]
      rw [hlast2, r2] at e2 ⊢
      have hmono2 := gen_mono rate (a := now - t0) (b := later - t0) (by omega)
      have hiff := gen_ge_iff (rate := rate) (x := later - t0) (k := gen rate (now - t0) + (n - m.tokens)) (by omega)
      have h0 : t0 ≤ now := by have := latest_ge t0 cs; omega
      constructor
      · intro h
        have := hiff.1 (by omega)
        omega
      · intro h
        have := hiff.2 (by omega)
        omega
  · refine ⟨0, by unfold waitFor; rw [if_pos hge], ?_, ?_⟩
    · rw [htake]; simp only [true_iff]; omega
    · intro later hle hc
      rw [hlater later hle hc]
      constructor
      · intro _; omega
      · intro _; omega

/-- If the clock has gone backwards the wait is measured from the latest clock value seen, so waiting from the
current one is not enough. -/
theorem C16_violated_backwards : ∃ l, init 1 1 0 5000000000 = some l ∧
    (computeWait l 1000000000 1).2 = some 1000000000 ∧
    (take (computeWait l 1000000000 1).1 2000000000 1).2 = false :=
  ⟨_, rfl, by decide +kernel, by decide +kernel⟩

/-! ## Non-vacuity -/

/-- AWS IoT Core's publish limit (100 per second), polled at uneven times. -/
def exampleCalls : Calls :=
  [(1000000007, .take 1), (1010000005, .take 1), (1010000007, .take 1), (1019999999, .wait 2), (1020000008, .take 1)]

example : ∃ l, init 100 100 0 1000000000 = some l ∧ InRange 100 exampleCalls ∧ NeverFull l exampleCalls ∧
    tokensTaken l exampleCalls = 2 ∧ answers l exampleCalls = [false, true, false, false, true] := by
  refine ⟨_, rfl, ?_, ?_, by decide +kernel, by decide +kernel⟩
  · intro c hc
    simp only [exampleCalls, List.mem_cons, List.not_mem_nil, or_false] at hc
    rcases hc with rfl | rfl | rfl | rfl | rfl <;>
      exact ⟨⟨by decide, by decide⟩, fun n hn => by cases hn <;> decide⟩
  · simp only [NeverFull, exampleCalls]
    decide +kernel

example : ∃ l, init 3 10 0 0 = some l ∧ (computeWait l 0 1).2 = some 333333334 ∧
    (take l 333333333 1).2 = false ∧ (take l 333333334 1).2 = true :=
  ⟨_, rfl, by decide +kernel, by decide +kernel, by decide +kernel⟩

end Mqtt.Props
