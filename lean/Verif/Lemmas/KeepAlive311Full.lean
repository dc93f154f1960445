import Verif.Lemmas.KeepAlive311Shut

/-! A channel with requests sent and not acknowledged for all packet ids. -/
namespace Mqtt.KeepAlive311

/-- Requests to be acknowledged that have not been sent. -/
def queued (n : Nat) : List Request := (List.range n).map fun i => { uid := i, acked := true }

/-- The channel with the first `k` of `n` requests sent. -/
def partly (cfg : Config) (n k : Nat) (l : List Entry) : Chan :=
  { phase := .connected, now := 1, next := 1 + cfg.keepAlive, connackAt := some cfg.pingTimeout, pingAt := some (1 + cfg.keepAlive),
    waiting := false, reqs := (List.range n).map fun i => { uid := i, acked := true, stamp := if i < k then 1 else 0 },
    tasks := ((List.range n).drop k).map some, nextUid := n, log := l }

theorem partly_step {cfg : Config} {n k : Nat} {l : List Entry} (hk : k < n) :
    (partly cfg n k l).send k = partly cfg n (k + 1) (l ++ [.sent 1]) := by
  have hd : (List.range n).drop k = k :: (List.range n).drop (k + 1) := by
    rw [List.drop_eq_getElem_cons (by simpa using hk)]
    simp
  have hf : (partly cfg n k l).reqs.find? (·.uid = k) = some { uid := k, acked := true, stamp := 0 } := by
    rw [show (partly cfg n k l).reqs = (List.range n).map fun i => { uid := i, acked := true, stamp := if i < k then 1 else 0 } from rfl,
      List.find?_map]
    have : (List.range n).find? ((fun r : Request => decide (r.uid = k)) ∘ fun i => { uid := i, acked := true, stamp := if i < k then 1 else 0 }) =
        some k := by
      rw [List.find?_range_eq_some]
      refine ⟨by simp, by simpa using hk, ?_⟩
      intro j hj
      simp
      omega
    rw [this]
    simp
  unfold Chan.send
  rw [hf]
  simp only [partly, hd, if_true]
  refine Chan.mk.injEq .. |>.mpr ?_
  simp only [true_and, and_true, List.map_cons, List.map_map]
  refine ⟨?_, by simp⟩
  apply List.map_congr_left
  intro i hi
  simp only [Function.comp]
  by_cases h : i = k
  · simp [h]
  · simp only [h, if_false]
    congr 1
    by_cases h2 : i < k
    · simp [h2, Nat.lt_succ_of_lt h2]
    · have : ¬ i < k + 1 := by omega
      simp [h2, this]

theorem partly_start {cfg : Config} (h : 1 ≤ cfg.pingTimeout) {n : Nat} (hn : n ≤ 65535) :
    Reachable cfg (partly cfg n 0 [.connect 0, .accepted 1]) := by
  have h0 : Reachable cfg (Chan.open cfg 0 0 false (queued n) n) := by
    refine .opened 0 0 false (queued n) n (by simpa [queued] using hn) ?_ ?_
    · have : (queued n).map (·.uid) = List.range n := by simp [queued, Function.comp_def]
      rw [this]; exact List.nodup_range
    · intro r hr
      simp only [queued, List.mem_map, List.mem_range] at hr
      obtain ⟨i, hi, rfl⟩ := hr
      exact ⟨hi, Nat.le_refl _⟩
  have h1 := Reachable.step (e := .tick 1) h0
    ⟨by decide, rfl, fun t ht => (by cases ht; show 0 + 1 ≤ 0 + cfg.pingTimeout; omega),
      fun t ht => (by cases ht), fun t ht => (by cases ht)⟩ rfl
  refine Reachable.step (e := .connack true) h1 (by simp [Enabled, Chan.open]) ?_
  simp [step, Chan.connack, Chan.open, partly, queued, Function.comp_def]

theorem partly_all {cfg : Config} (h : 1 ≤ cfg.pingTimeout) {n : Nat} (hn : n ≤ 65535) :
    ∀ k, k ≤ n → Reachable cfg (partly cfg n k ([.connect 0, .accepted 1] ++ List.replicate k (.sent 1)))
  | 0, _ => partly_start h hn
  | k + 1, hk => by
    have ih := partly_all h hn k (by omega)
    have := Reachable.step (e := .send k) ih (c' := partly cfg n (k + 1) (([.connect 0, .accepted 1] ++ List.replicate k (.sent 1)) ++ [.sent 1]))
      (by
        show some k ∈ ((List.range n).drop k).map some
        rw [List.drop_eq_getElem_cons (by rw [List.length_range]; exact hk)]
        simp)
      (by simp only [step]; rw [partly_step (by omega)])
    rw [List.replicate_succ', ← List.append_assoc]
    exact this

/-- The channel with all ids taken, when time has passed. -/
def silent (cfg : Config) (n : Nat) : Chan :=
  { partly cfg n n ([.connect 0, .accepted 1] ++ List.replicate n (.sent 1) ++ [.skipped (1 + cfg.keepAlive)]) with
    now := 1 + cfg.keepAlive + cfg.keepAlive
    next := 1 + cfg.keepAlive + cfg.keepAlive
    pingAt := some (1 + cfg.keepAlive + cfg.keepAlive)
    connackAt := none }

theorem silent_reachable {cfg : Config} {n : Nat} (hn : n = 65535) (h : 1 ≤ cfg.pingTimeout) (hc : cfg.pingTimeout < cfg.keepAlive) :
    Reachable cfg (silent cfg n) := by
  generalize hl : ([.connect 0, .accepted 1] ++ List.replicate n (.sent 1) : List Entry) = l
  have h0 := partly_all (cfg := cfg) h (n := n) (Nat.le_of_eq hn) n (Nat.le_refl _)
  rw [hl] at h0
  unfold silent
  rw [hl]
  have hlen : (partly cfg n n l).reqs.length = n := by simp [partly]
  have htask : (partly cfg n n l).tasks = [] := by simp [partly]
  have hconn : (partly cfg n n l).connackAt = some cfg.pingTimeout := rfl
  have hping : (partly cfg n n l).pingAt = some (1 + cfg.keepAlive) := rfl
  have hnext : (partly cfg n n l).next = 1 + cfg.keepAlive := rfl
  have hnow : (partly cfg n n l).now = 1 := rfl
  have htim : (partly cfg n n l).timers = [] := rfl
  have hph : (partly cfg n n l).phase = .connected := rfl
  have hlog : (partly cfg n n l).log = l := rfl
  have hpl : ∀ l', partly cfg n n l' = { partly cfg n n l with log := l' } := fun _ => rfl
  rw [hpl]
  generalize partly cfg n n l = c at *
  -- to the CONNACK timeout
  have h1 : Reachable cfg { c with now := cfg.pingTimeout } := by
    by_cases hd : cfg.pingTimeout = 1
    · rw [hd, ← hnow]; exact h0
    · refine Reachable.step (e := .tick (cfg.pingTimeout - 1)) h0 ⟨by omega, htask, ?_, ?_, ?_⟩ ?_
      · intro t ht; rw [hconn] at ht; cases ht; omega
      · intro t ht; rw [hping] at ht; cases ht; omega
      · rw [htim]; simp
      · simp only [step, hnow]
        rw [show 1 + (cfg.pingTimeout - 1) = cfg.pingTimeout by omega]
  have h2 : Reachable cfg { c with now := cfg.pingTimeout, connackAt := none } := by
    refine Reachable.step (e := .connackTimer) h1 ⟨_, hconn, Nat.le_refl _⟩ ?_
    simp [step, Chan.connackTimer, hph]
  -- to the time of the ping
  have h3 : Reachable cfg { c with now := 1 + cfg.keepAlive, connackAt := none } := by
    refine Reachable.step (e := .tick (1 + cfg.keepAlive - cfg.pingTimeout)) h2 ⟨by omega, htask, by simp, ?_, ?_⟩ ?_
    · intro t ht
      have ht : c.pingAt = some t := ht
      rw [hping] at ht; cases ht
      show cfg.pingTimeout + _ ≤ _
      omega
    · show ∀ t ∈ c.timers, _
      rw [htim]; simp
    · simp only [step]
      rw [show cfg.pingTimeout + (1 + cfg.keepAlive - cfg.pingTimeout) = 1 + cfg.keepAlive by omega]
  have h4 : Reachable cfg { c with now := 1 + cfg.keepAlive, connackAt := none
                                   next := 1 + cfg.keepAlive + cfg.keepAlive
                                   pingAt := some (1 + cfg.keepAlive + cfg.keepAlive)
                                   log := l ++ [.skipped (1 + cfg.keepAlive)] } := by
    refine Reachable.step (e := .pingTask) h3 ⟨_, hping, Nat.le_refl _⟩ ?_
    simp [step, Chan.pingTask, hnext, hph, Chan.full, hlen, hlog, hn]
  refine Reachable.step (e := .tick cfg.keepAlive) h4 ⟨by omega, htask, by simp, ?_, ?_⟩ rfl
  · intro t ht; cases ht; exact Nat.le_refl _
  · show ∀ t ∈ c.timers, _
    rw [htim]; simp

/-! ### Runs -/

def enabledB (c : Chan) : Event → Bool
  | .tick d => 0 < d && c.tasks.isEmpty && c.connackAt.all (c.now + d ≤ ·) && c.pingAt.all (c.now + d ≤ ·) &&
      c.timers.all (c.now + d ≤ ·)
  | .connack _ => c.phase ≠ .closed
  | .pingresp => c.phase ≠ .closed
  | .submit _ => true
  | .send uid => some uid ∈ c.tasks
  | .fail uid => some uid ∈ c.tasks
  | .sendPing => none ∈ c.tasks
  | .pingTask => c.pingAt.any (· ≤ c.now)
  | .pingTimer t => t ∈ c.timers ∧ t ≤ c.now
  | .connackTimer => c.connackAt.any (· ≤ c.now)
  | .ack uid => c.phase ≠ .closed ∧ some uid ∉ c.tasks
  | .drop uid => some uid ∉ c.tasks
  | .disconnect => true
  | .shut => c.phase ≠ .closed

theorem enabledB_sound {c : Chan} {e : Event} (h : enabledB c e = true) : Enabled c e := by
  cases e <;> simp only [enabledB, Enabled, Bool.and_eq_true, decide_eq_true_eq, List.isEmpty_iff] at h ⊢
  case tick d =>
    obtain ⟨⟨⟨⟨h1, h2⟩, h3⟩, h4⟩, h5⟩ := h
    refine ⟨h1, h2, fun t ht => ?_, fun t ht => ?_, fun t ht => ?_⟩
    · rw [ht] at h3; simpa using h3
    · rw [ht] at h4; simpa using h4
    · simpa using (List.all_eq_true.1 h5) t ht
  case pingTask => simpa [Option.any_eq_true] using h
  case connackTimer => simpa [Option.any_eq_true] using h
  all_goals exact h

/-- What happens on a channel. -/
def run (cfg : Config) (c : Chan) : List Event → Option Chan
  | [] => some c
  | e :: es => if enabledB c e then (match step cfg c e with | .ok c' => run cfg c' es | .error _ => none) else none

theorem run_reachable {cfg : Config} : ∀ {es : List Event} {c c' : Chan}, Reachable cfg c → run cfg c es = some c' → Reachable cfg c'
  | [], _, _, h, hr => by cases hr; exact h
  | e :: es, c, c', h, hr => by
    simp only [run] at hr
    split at hr
    · next he =>
      split at hr
      · next hs => exact run_reachable (.step h (enabledB_sound he) hs) hr
      · cases hr
    · cases hr

end Mqtt.KeepAlive311
