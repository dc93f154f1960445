import Verif.Reconnect

/-!
C36: the reconnect delay grows exponentially from the configured minimum up to the configured
maximum, jitter only shortens it, a connection that stayed up long enough resets it, and nothing
overflows.
-/
namespace Mqtt.Props.Reconnect
open Mqtt.Reconnect

theorem convert_ten : convert 10 1 1000000000 = 10000000000 := by decide

section

attribute [local irreducible] addSat mulSat convert

/-- One life of a connection as the MQTT 5 back-off sees it: if it reached CONNECTED, when, and when
the client was serviced while connected; then the loss, with the random draw made and the time. -/
structure Round where
  up : Option (Nat × List Nat)
  draw : Option Nat
  lostAt : Nat

/-- What the code does with one round (mqtt5_client.c: entering CONNECTED, servicing CONNECTED,
entering PENDING_RECONNECT): the delay chosen, and the state afterwards. -/
def playUp (c : Config) (s : State) (r : Round) : State :=
  match r.up with
  | none => s
  | some (t, services) => services.foldl onService (onConnected c s t)

def play (c : Config) (s : State) (r : Round) : State :=
  update c (playUp c s r) r.draw r.lostAt

/-- The connection stayed up for the configured minimum: it was serviced that long after CONNACK. -/
def Stable (c : Config) (r : Round) : Prop :=
  ∃ t services, r.up = some (t, services) ∧
    ∃ now ∈ services, t + 1000000 * c.resetAfter ≤ now

open Classical in
/-- Consecutive failures at the end of a history: the number of rounds since the last stable
connection; the round that ends a stable connection counts as one. -/
noncomputable def failures (c : Config) : List Round → Nat
  | [] => 0
  | r :: rest => if Stable c r then 1 else failures c rest + 1

/-- Clock readings in use stay below the end of time. -/
def Timely (c : Config) (r : Round) : Prop :=
  ∀ t services, r.up = some (t, services) →
    t + 1000000 * c.resetAfter < u64max ∧ ∀ now ∈ services, now < u64max

/-- Failures that preceded the loss ending round `r`, newest history first. -/
noncomputable def before (c : Config) (r : Round) (past : List Round) : Nat :=
  failures c (r :: past) - 1

theorem addSat_eq {a b : Nat} (h : a + b ≤ u64max) : addSat a b = a + b := by
  rw [addSat]; exact Nat.min_eq_right h

theorem mulSat_eq {a b : Nat} (h : b * a ≤ u64max) : mulSat a b = b * a := by
  rw [mulSat, Nat.mul_comm]; exact Nat.min_eq_right h

theorem convert_ms {x : Nat} (h : 1000000 * x ≤ u64max) :
    convert x 1000 1000000000 = 1000000 * x := by
  have h1 : 1000000000 * (x / 1000) ≤ u64max := by omega
  have h2 : 1000000000 * (x - 1000 * (x / 1000)) ≤ u64max := by omega
  rw [convert]
  simp only [Nat.mul_comm (x / 1000) 1000, mulSat_eq h1, mulSat_eq h2]
  rw [addSat_eq] <;> omega

theorem services_reset {s : State} {at' : Nat} (h0 : s.resetAt = at') (hp : 0 < at')
    (services : List Nat) :
    (services.foldl onService s).count = (if ∃ now ∈ services, at' ≤ now then 0 else s.count) := by
  induction services generalizing s with
  | nil => simp
  | cons x rest ih =>
    have zero : ∀ (l : List Nat) (s : State), s.resetAt = 0 → (l.foldl onService s).count = s.count := by
      intro l
      induction l with
      | nil => intros; rfl
      | cons y l ih => intro s h; rw [List.foldl_cons, ih] <;> simp [onService, h]
    rw [List.foldl_cons]
    by_cases hx : at' ≤ x
    · have hs : onService s x = { s with count := 0, current := 0, resetAt := 0 } := by
        simp only [onService, h0]; rw [if_pos ⟨hx, by omega⟩]
      rw [hs, zero _ _ rfl, if_pos ⟨x, by simp, hx⟩]
    · have hs : onService s x = s := by
        simp only [onService, h0]; rw [if_neg (by omega)]
      rw [hs, ih h0]
      simp [hx]

theorem services_current (services : List Nat) {s : State} (h : s.current = 0) :
    (services.foldl onService s).current = 0 := by
  induction services generalizing s with
  | nil => exact h
  | cons x rest ih =>
    rw [List.foldl_cons]; apply ih
    simp only [onService]; split <;> simp [h]

theorem onConnected_eq (c : Config) (s : State) (t : Nat) :
    ∃ x, onConnected c s t = { s with resetAt := x } := ⟨_, rfl⟩

theorem playUp_current (c : Config) {s : State} (r : Round) (h : s.current = 0) :
    (playUp c s r).current = 0 := by
  unfold playUp; split
  · exact h
  · rename_i t services _
    obtain ⟨x, hx⟩ := onConnected_eq c s t
    rw [hx]
    exact services_current _ h

open Classical in
theorem playUp_count (c : Config) (s : State) (r : Round) (hc : 0 < c.resetAfter)
    (ht : Timely c r) :
    (playUp c s r).count = if Stable c r then 0 else s.count := by
  unfold playUp
  split
  · rename_i h
    rw [if_neg]
    rintro ⟨t, sv, h', _⟩; rw [h] at h'; exact absurd h' (by simp)
  · rename_i t services h
    have hb := (ht t services h).1
    have hr : (onConnected c s t).resetAt = t + 1000000 * c.resetAfter := by
      simp only [onConnected, convert_ms (show 1000000 * c.resetAfter ≤ u64max by omega)]
      exact addSat_eq (by omega)
    rw [services_reset hr (by omega)]
    have : (onConnected c s t).count = s.count := by
      obtain ⟨x, hx⟩ := onConnected_eq c s t
      rw [hx]
    rw [this]
    by_cases hs : ∃ now ∈ services, t + 1000000 * c.resetAfter ≤ now
    · rw [if_pos hs, if_pos ⟨t, services, h, hs⟩]
    · rw [if_neg hs, if_neg]
      rintro ⟨t', sv', h', hx⟩
      rw [h] at h'
      simp only [Option.some.injEq, Prod.mk.injEq] at h'
      obtain ⟨rfl, rfl⟩ := h'
      exact hs hx

/-- State after a history (newest round first). -/
def after (c : Config) (history : List Round) : State :=
  history.foldr (fun r s => play c s r) {}

theorem after_spec (c : Config) (hc : 0 < c.resetAfter) (history : List Round)
    (ht : ∀ r ∈ history, Timely c r) (hn : history.length < u64max) :
    (after c history).count = failures c history ∧ failures c history ≤ history.length ∧
      (after c history).current = 0 := by
  induction history with
  | nil => simp [after, failures]
  | cons r rest ih =>
    obtain ⟨i1, i2, i3⟩ := ih (fun x h => ht x (List.mem_cons_of_mem _ h))
      (by simp only [List.length_cons] at hn; omega)
    simp only [List.length_cons] at hn ⊢
    have hcnt := playUp_count c (after c rest) r hc (ht r (by simp))
    have hcur := playUp_current c r i3
    have e : after c (r :: rest) = play c (after c rest) r := rfl
    rw [e]
    refine ⟨?_, ?_, hcur⟩
    · simp only [play, update, hcnt, failures, i1]
      split <;> omega
    · simp only [failures]; split <;> omega

/-- The delay the client chooses at the end of round `r` after the rounds `past`. -/
def chosen (c : Config) (r : Round) (past : List Round) : Nat :=
  delay c (playUp c (after c past) r) r.draw

theorem before_count (c : Config) (hc : 0 < c.resetAfter) (r : Round) (past : List Round)
    (ht : ∀ x ∈ r :: past, Timely c x) (hn : past.length < u64max) :
    (playUp c (after c past) r).count = before c r past ∧
      (playUp c (after c past) r).current = 0 := by
  obtain ⟨i1, _, i3⟩ := after_spec c hc past (fun x h => ht x (List.mem_cons_of_mem _ h)) hn
  refine ⟨?_, playUp_current c r i3⟩
  rw [playUp_count c _ r hc (ht r (by simp)), i1, before, failures]
  split <;> simp

/-- `min(max, min * 2^n)` computed without overflow. -/
theorem noJitter_bound (c : Config) (s : State) (hmin : 0 < c.minDelay) (hmax : c.maxDelay ≤ 2 ^ 63) :
    min (noJitter c s) c.maxDelay = min c.maxDelay (c.minDelay * 2 ^ s.count) := by
  have e63 : (2:Nat) ^ 63 = 9223372036854775808 := by decide
  simp only [noJitter, mulSat]
  by_cases h : s.count ≤ 63
  · rw [Nat.min_eq_left h, Nat.mul_comm (2 ^ s.count)]
    omega
  · rw [Nat.min_eq_right (show 63 ≤ s.count by omega)]
    have h1 : (2:Nat) ^ 63 ≤ 2 ^ 63 * c.minDelay := Nat.le_mul_of_pos_right _ hmin
    have h2 : (2:Nat) ^ 63 ≤ c.minDelay * 2 ^ s.count :=
      Nat.le_trans (Nat.pow_le_pow_right (by omega) (by omega))
        (Nat.le_mul_of_pos_left _ hmin)
    omega

theorem noJitter_le (c : Config) (s : State) : noJitter c s ≤ u64max := by
  simp only [noJitter, mulSat]; omega

theorem random_le {b : Nat} (hb : b ≤ u64max) (draw : Option Nat)
    (hd : ∀ r, draw = some r → r ≤ u64max) : randomInRange 0 b draw ≤ b := by
  simp only [randomInRange, Nat.zero_le, Nat.max_eq_right, Nat.min_eq_left, Nat.sub_zero]
  split
  · omega
  · cases draw with
    | none => simp
    | some r =>
      simp only
      split
      · rename_i h; rw [h]; exact hd r rfl
      · have := Nat.mod_lt r (show 0 < b + 1 by omega); omega

/-- **C36, MQTT 5, no jitter**: for every history of connections, the delay after `n` consecutive
failures is exactly `min(max, min * 2^n)`. -/
theorem C36_exact_partial (c : Config) (hj : c.jitter = .none) (hmin : 0 < c.minDelay)
    (hmax : c.maxDelay ≤ 2 ^ 63) (hc : 0 < c.resetAfter) (r : Round) (past : List Round)
    (ht : ∀ x ∈ r :: past, Timely c x) (hn : past.length < u64max) :
    chosen c r past = min c.maxDelay (c.minDelay * 2 ^ before c r past) := by
  obtain ⟨h, _⟩ := before_count c hc r past ht hn
  simp only [chosen, delay, hj]
  rw [noJitter_bound c _ hmin hmax, h]

/-- **C36, MQTT 5, any jitter mode and any random draw**: never more than `min(max, min * 2^n)`. -/
theorem C36_jitter_partial (c : Config) (hmin : 0 < c.minDelay)
    (hmax : c.maxDelay ≤ 2 ^ 63) (hc : 0 < c.resetAfter) (r : Round) (past : List Round)
    (ht : ∀ x ∈ r :: past, Timely c x) (hn : past.length < u64max)
    (hd : ∀ x, r.draw = some x → x ≤ u64max) :
    chosen c r past ≤ min c.maxDelay (c.minDelay * 2 ^ before c r past) := by
  obtain ⟨h, h0⟩ := before_count c hc r past ht hn
  rw [← h, ← noJitter_bound c _ hmin hmax]
  have hr := random_le (noJitter_le c (playUp c (after c past) r)) r.draw hd
  simp only [chosen, delay]
  cases c.jitter <;> simp only [fullJitter, decorrelated, h0, if_true] <;> omega

/-- With jitter every delay up to the bound is possible: the range is inclusive at both ends. -/
theorem C36_jitter_reaches (c : Config) (hj : c.jitter ≠ .none) (hmin : 0 < c.minDelay)
    (hmax : c.maxDelay ≤ 2 ^ 63) (hc : 0 < c.resetAfter) (r : Round) (past : List Round)
    (ht : ∀ x ∈ r :: past, Timely c x) (hn : past.length < u64max) (d : Nat)
    (h : d ≤ min c.maxDelay (c.minDelay * 2 ^ before c r past)) :
    ∃ x, x ≤ u64max ∧ chosen c { r with draw := some x } past = d := by
  obtain ⟨hb, h0⟩ := before_count c hc r past ht hn
  rw [← hb, ← noJitter_bound c _ hmin hmax] at h
  have hle := noJitter_le c (playUp c (after c past) r)
  refine ⟨d, by omega, ?_⟩
  have e : playUp c (after c past) { r with draw := some d } = playUp c (after c past) r := rfl
  have hr : randomInRange 0 (noJitter c (playUp c (after c past) r)) (some d) = d := by
    generalize noJitter c (playUp c (after c past) r) = b at h
    simp only [randomInRange, Nat.zero_le, Nat.max_eq_right, Nat.min_eq_left, Nat.sub_zero]
    split
    · omega
    · split
      · rfl
      · rw [Nat.mod_eq_of_lt (by omega)]; omega
  simp only [chosen, delay, e]
  cases hk : c.jitter <;> simp only [fullJitter, decorrelated, h0, if_true, hr] <;>
    first | exact absurd hk hj | omega

/-- **C36, reset**: the loss of a connection that stayed up for the configured minimum time starts
again from the minimum delay. -/
theorem C36_reset (c : Config) (r : Round) (past : List Round) (h : Stable c r) :
    before c r past = 0 := by
  simp [before, failures, h]

/-- Failing once more adds one to the count otherwise. -/
theorem C36_counts (c : Config) (r r' : Round) (past : List Round) (h : ¬ Stable c r') :
    before c r' (r :: past) = before c r past + 1 := by
  simp only [before, failures, h, if_false]
  split <;> omega

/-- **C36, no overflow**: the next attempt is scheduled exactly `delay` milliseconds after the loss. -/
theorem C36_scheduled (c : Config) (r : Round) (past : List Round)
    (h : r.lostAt + 1000000 * chosen c r past ≤ u64max) :
    (after c (r :: past)).nextAt = r.lostAt + 1000000 * chosen c r past := by
  have e : (after c (r :: past)).nextAt =
    addSat r.lostAt (convert (chosen c r past) 1000 1000000000) := rfl
  rw [e, convert_ms (by omega), addSat_eq h]

/-- Configurations reaching the code have these options non-zero. -/
theorem C36_defaults (c : Config) :
    0 < c.withDefaults.minDelay ∧ 0 < c.withDefaults.maxDelay ∧ 0 < c.withDefaults.resetAfter := by
  simp only [Config.withDefaults]
  refine ⟨?_, ?_, ?_⟩ <;> split <;> omega

/-! ### MQTT 3.1.1 -/

/-- One life of a 3.1.1 channel: when CONNACK was accepted, if it was, and when the channel shut
down. -/
structure Round311 where
  up : Option Nat
  lostAt : Nat

/-- CONNACK, then shutdown. -/
def lose (s : State311) (r : Round311) : State311 :=
  onShutdown (match r.up with | some t => onConnack s t | none => s) false r.lostAt

/-- Then the scheduled attempt doubles the delay. -/
def play311 (s : State311) (r : Round311) : State311 := onAttempt (lose s r)

/-- The connection lasted ten seconds or more. -/
def Stable311 (r : Round311) : Prop := ∃ t, r.up = some t ∧ t + 10000000000 ≤ r.lostAt

open Classical in
noncomputable def failures311 : List Round311 → Nat
  | [] => 0
  | r :: rest => if Stable311 r then 1 else failures311 rest + 1

def after311 (s : State311) (history : List Round311) : State311 :=
  history.foldr (fun r s => play311 s r) s

/-- Clock readings are positive, fit 64 bits and do not go back. -/
def Timely311 (r : Round311) : Prop :=
  r.lostAt ≤ u64max ∧ ∀ t, r.up = some t → 0 < t ∧ t ≤ r.lostAt

open Classical in
theorem lose_current (s : State311) (r : Round311) (h0 : s.connackAt = 0) (ht : Timely311 r) :
    (lose s r).currentSec = (if Stable311 r then s.minSec else s.currentSec) ∧
    (lose s r).connackAt = 0 ∧ (lose s r).minSec = s.minSec ∧ (lose s r).maxSec = s.maxSec := by
  have hc := convert_ten
  obtain ⟨up, now⟩ := r
  cases up with
  | none =>
    have : ¬ Stable311 ⟨none, now⟩ := by rintro ⟨t, h, _⟩; exact absurd h (by simp)
    simp [lose, onShutdown, h0, this]
  | some t =>
    obtain ⟨h1, h2⟩ := ht
    obtain ⟨h3, h4⟩ := h2 t rfl
    simp only at h1 h4
    have hd : (now + 18446744073709551616 - t) % 18446744073709551616 = now - t := by omega
    have hs : Stable311 ⟨some t, now⟩ ↔ t + 10000000000 ≤ now := by simp [Stable311]
    simp only [lose, onShutdown, onConnack, hc, hd, hs]
    by_cases hx : t + 10000000000 ≤ now
    · have : ¬ t = 0 ∧ 10000000000 ≤ now - t := by omega
      simp [hx, this]
    · have : ¬ (¬ t = 0 ∧ 10000000000 ≤ now - t) := by omega
      simp [hx, this]

/-- Doubling with the cap. -/
theorem attempt_current (s : State311) : (onAttempt s).currentSec = min s.maxSec (s.currentSec * 2) := by
  simp only [onAttempt]; split <;> simp only <;> omega

theorem attempt_rest (s : State311) : (onAttempt s).connackAt = s.connackAt ∧
    (onAttempt s).minSec = s.minSec ∧ (onAttempt s).maxSec = s.maxSec := by
  simp only [onAttempt]; split <;> simp

theorem after311_spec (s : State311) (h0 : s.connackAt = 0) (hi : s.currentSec = s.minSec)
    (hle : s.minSec ≤ s.maxSec) (history : List Round311) (ht : ∀ r ∈ history, Timely311 r) :
    (after311 s history).currentSec = min s.maxSec (s.minSec * 2 ^ failures311 history) ∧
    (after311 s history).connackAt = 0 ∧ (after311 s history).minSec = s.minSec ∧
    (after311 s history).maxSec = s.maxSec := by
  induction history with
  | nil => simp [after311, failures311, h0, hi]; omega
  | cons r rest ih =>
    obtain ⟨i1, i2, i3, i4⟩ := ih (fun x h => ht x (List.mem_cons_of_mem _ h))
    obtain ⟨l1, l2, l3, l4⟩ := lose_current (after311 s rest) r i2 (ht r (by simp))
    have e : after311 s (r :: rest) = onAttempt (lose (after311 s rest) r) := rfl
    rw [e]
    obtain ⟨a1, a2, a3⟩ := attempt_rest (lose (after311 s rest) r)
    refine ⟨?_, by rw [a1, l2], by rw [a2, l3, i3], by rw [a3, l4, i4]⟩
    rw [attempt_current, l1, l4, i4, i3, i1]
    simp only [failures311]
    by_cases hs : Stable311 r
    · simp [hs]
    · simp only [hs, if_false]
      have : (2:Nat) ^ (failures311 rest + 1) = 2 ^ failures311 rest * 2 := Nat.pow_succ ..
      rw [this, ← Nat.mul_assoc]
      generalize s.minSec * 2 ^ failures311 rest = x
      omega

/-- **C36, MQTT 3.1.1**: with `min ≤ max` configured, the delay in seconds scheduled when round `r`
ends is exactly `min(max, min * 2^n)`, `n` the consecutive failures before it. -/
theorem C36_exact_311_partial (s : State311) (lo hi : Nat) (hle : lo ≤ hi) (hc0 : s.connackAt = 0)
    (r : Round311) (past : List Round311) (ht : ∀ x ∈ r :: past, Timely311 x) :
    (lose (after311 (setTimeout s lo hi) past) r).currentSec =
      min hi (lo * 2 ^ (failures311 (r :: past) - 1)) := by
  obtain ⟨i1, i2, i3, _⟩ := after311_spec (setTimeout s lo hi) hc0 rfl hle past
    (fun x h => ht x (List.mem_cons_of_mem _ h))
  obtain ⟨l1, _⟩ := lose_current (after311 (setTimeout s lo hi) past) r i2 (ht r (by simp))
  rw [l1, i1, i3]
  simp only [failures311]
  by_cases hs : Stable311 r
  · simp [hs, setTimeout]; omega
  · simp [hs, setTimeout]

/-- The next attempt is scheduled exactly that many seconds later, if that is a time that can be
represented. -/
theorem C36_scheduled_311_partial (s : State311) (now : Nat)
    (h : now + 1000000000 * s.currentSec ≤ u64max) :
    nextAttempt s now = now + 1000000000 * s.currentSec := by
  have h1 : 1000000000 * (s.currentSec / 1) ≤ u64max := by omega
  have h2 : 1000000000 * (s.currentSec - s.currentSec / 1 * 1) ≤ u64max := by omega
  have e : convert s.currentSec 1 1000000000 = 1000000000 * s.currentSec := by
    rw [convert]
    simp only [mulSat_eq h1, mulSat_eq h2]
    rw [addSat_eq] <;> omega
  rw [nextAttempt, e]
  omega

end

/-! ### Where the code falls short -/

/-- The bound fails for DECORRELATED jitter once the 3.1.1 adapter has reset the connection: the
first delay may be three times the minimum. -/
theorem C36_violated_decorrelated :
    ∃ (c : Config) (draw : Option Nat), c.jitter = .decorrelated ∧
      delay c (resetConnection c {}) draw > min c.maxDelay (c.minDelay * 2 ^ 0) :=
  ⟨{ jitter := .decorrelated, minDelay := 1000, maxDelay := 120000, resetAfter := 30000 },
    some 2000, rfl, by decide⟩

/-- The hypothesis on `max` is needed: the exponent stops at 63 (a delay of 292 million years). -/
theorem C36_violated_cap :
    delay { jitter := .none, minDelay := 1, maxDelay := u64max, resetAfter := 1 } { count := 64 } none
      < min u64max (1 * 2 ^ 64) := by decide

/-- The 3.1.1 addition wraps: asking for the longest possible delay schedules the attempt before
now, that is, immediately. -/
theorem C36_violated_overflow_311 (now : Nat) (h0 : 0 < now) (h : now ≤ u64max) :
    nextAttempt (setTimeout {} u64max u64max) now < now := by
  have : convert u64max 1 1000000000 = u64max := by decide
  simp only [nextAttempt, setTimeout, this]; omega

/-- `set_reconnect_timeout` does not check `min ≤ max`; the first delay then exceeds the maximum. -/
theorem C36_violated_bounds_311 :
    ∃ s : State311, s = setTimeout {} 10 5 ∧ (lose s ⟨none, 1⟩).currentSec > s.maxSec :=
  ⟨_, rfl, by decide⟩

/-! Concrete cases. -/

/-- Three failures in a row with the default limits. -/
def sample : Config := ({ jitter := .none } : Config).withDefaults

example : chosen sample ⟨none, none, 5⟩ [⟨none, none, 4⟩, ⟨none, none, 3⟩] = 4000 := by decide

/-- The middle connection stayed up for more than thirty seconds. -/
example : chosen sample ⟨none, none, 99000000000⟩
    [⟨some (1, [2, 40000000000]), none, 50000000000⟩, ⟨none, none, 3⟩] = 2000 := by decide

example : Stable sample ⟨some (1, [2, 40000000000]), none, 50000000000⟩ :=
  ⟨1, _, rfl, 40000000000, by simp, by decide⟩

example : (lose (after311 (setTimeout {} 1 128) [⟨none, 9⟩, ⟨some 1, 2⟩]) ⟨none, 10⟩).currentSec = 4 := by
  decide

end Mqtt.Props.Reconnect
