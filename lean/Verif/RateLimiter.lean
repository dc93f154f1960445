/-!
Model of /repo/source/v5/rate_limiters.c. All numbers are `uint64_t`; `wrap` marks the places where
the C code adds or subtracts without a check. The clock is read once per call and passed in as `now`;
a clock that fails (fatal assertion, 42, 49) is not modelled.
-/
namespace Mqtt.RateLimiter

/-! `two64` is 2^64. -/
scoped notation "two64" => (18446744073709551616 : Nat)

/-- Unsigned 64-bit wrap around. -/
def wrap (n : Nat) : Nat := n % two64

/-- `a - b` on `uint64_t`. -/
def wrapSub (a b : Nat) : Nat := wrap (a + (two64 - b))

/-- `aws_mul_u64_saturating`. -/
def mulSat (a b : Nat) : Nat := min (a * b) (two64 - 1)

/-- `aws_add_u64_saturating`. -/
def addSat (a b : Nat) : Nat := min (a + b) (two64 - 1)

/-! `nanos` is `AWS_TIMESTAMP_NANOS`. -/
scoped notation "nanos" => (1000000000 : Nat)

/-- `struct aws_rate_limiter_token_bucket` (rate_limiters.h:13-61). -/
structure Limiter where
  rate : Nat
  maxTokens : Nat
  initialTokens : Nat
  tokens : Nat
  fracNanos : Nat
  fracTokens : Nat
  last : Nat
deriving DecidableEq, Repr

/-- `aws_rate_limiter_token_bucket_reset` (34-45). -/
def reset (l : Limiter) (now : Nat) : Limiter :=
  { l with tokens := min l.initialTokens l.maxTokens, fracNanos := 0, fracTokens := 0, last := now }

/-- `aws_rate_limiter_token_bucket_init` (18-32); `none` is the error result. -/
def init (rate maxTokens initialTokens now : Nat) : Option Limiter :=
  if rate = 0 ∨ maxTokens = 0 then none
  else some (reset { rate, maxTokens, initialTokens, tokens := 0, fracNanos := 0, fracTokens := 0, last := 0 } now)

/-- The part of `s_regenerate_tokens` after the early return (55-123). -/
def regenerateBy (l : Limiter) (now elapsed : Nat) : Limiter :=
  let whole := mulSat (elapsed / nanos) l.rate                                     -- 74-79
  let frac := l.fracNanos + elapsed % nanos                                        -- 82
  if frac < nanos then                                                             -- 85
    let newFrac := mulSat frac l.rate / nanos                                      -- 90-91
    let regenerated := wrap (whole + wrapSub newFrac l.fracTokens)                 -- 96
    { l with tokens := min (addSat regenerated l.tokens) l.maxTokens               -- 118-121
             fracNanos := frac, fracTokens := newFrac, last := now }
  else
    let r1 := wrap (whole + wrapSub l.rate l.fracTokens)                           -- 104
    let frac := frac - nanos                                                       -- 109
    let newFrac := mulSat frac l.rate / nanos                                      -- 114-115
    let regenerated := wrap (r1 + newFrac)                                         -- 116
    { l with tokens := min (addSat regenerated l.tokens) l.maxTokens
             fracNanos := frac, fracTokens := newFrac, last := now }

/-- `s_regenerate_tokens` (47-124). -/
def regenerate (l : Limiter) (now : Nat) : Limiter :=
  if now ≤ l.last then l                                                           -- 51-53
  else regenerateBy l now (now - l.last)

/-- `aws_rate_limiter_token_bucket_can_take_tokens` (126-131). -/
def canTake (l : Limiter) (now n : Nat) : Limiter × Bool :=
  (regenerate l now, n ≤ (regenerate l now).tokens)

/-- `aws_rate_limiter_token_bucket_take_tokens` (133-143). -/
def take (l : Limiter) (now n : Nat) : Limiter × Bool :=
  if (regenerate l now).tokens < n then (regenerate l now, false)
  else ({ regenerate l now with tokens := (regenerate l now).tokens - n }, true)

/-- The wait computation on a regenerated bucket (150-217); `none` is a failed fatal assertion. -/
def waitFor (l : Limiter) (n : Nat) : Option Nat :=
  if n ≤ l.tokens then some 0                                                      -- 150-152
  else if l.fracNanos ≥ nanos then none                                            -- 155
  else if l.fracTokens > l.rate then none                                          -- 156
  else
    let deficit := n - l.tokens                                                    -- 160
    let remaining := l.rate - l.fracTokens                                         -- 161
    if deficit < remaining then
      let target := addSat deficit l.fracTokens                                    -- 171
      let unnormalized := mulSat target nanos                                      -- 172
      let wait := wrapSub (unnormalized / l.rate) l.fracNanos                      -- 174
      some (if unnormalized % l.rate ≠ 0 then wrap (wait + 1) else wait)           -- 177-179
    else
      let wait := nanos - l.fracNanos                                              -- 188
      let deficit := deficit - remaining                                           -- 189
      let wait := wrap (wait + mulSat (deficit / l.rate) nanos)                    -- 195-201
      let unnormalized := mulSat (deficit % l.rate) nanos                          -- 206
      let wait := wrap (wait + unnormalized / l.rate)                              -- 207
      some (if unnormalized % l.rate ≠ 0 then wrap (wait + 1) else wait)           -- 210-212

/-- `aws_rate_limiter_token_bucket_compute_wait_for_tokens` (145-217). -/
def computeWait (l : Limiter) (now n : Nat) : Limiter × Option Nat :=
  (regenerate l now, waitFor (regenerate l now) n)

end Mqtt.RateLimiter
