import Verif.Lemmas.RrManagerInv

/-!
C41: the subscription manager of the request-response client has at most one subscribe or unsubscribe outstanding for each
topic filter, and does not unsubscribe from a filter an operation depends on.

The log has `issued a f` for each successful call of the protocol adapter, `finished a f ok` for its completion,
`acquired i f k` when operation `i` becomes a listener of `f`, `released i f` when it stops, and the status events the
manager sends to operations.
-/
namespace Mqtt.Props
open Mqtt.Rr

/-- **C41** until `clean_up`: at most one of a subscribe and an unsubscribe is outstanding. -/
theorem C41_partial {cfg : Config} {m : Manager} (h : Reachable cfg m) (hc : m.closed = false) (f : Bytes) :
    0 ≤ outstanding m.log .subscribe f ∧ 0 ≤ outstanding m.log .unsubscribe f ∧
      outstanding m.log .subscribe f + outstanding m.log .unsubscribe f ≤ 1 := by
  have hp := (reachable_minv h).usable hc f
  have h1 := hp.sub
  have h2 := hp.unsub
  cases hr : m.records.get f with
  | none => rw [hr] at h1 h2; simp at h1 h2; omega
  | some r =>
    rw [hr] at h1 h2
    cases hx : r.pending <;> simp [hx] at h1 h2 <;> omega

/-- **C41** until `clean_up`: whenever an unsubscribe is issued, no operation that acquired the filter still depends on it. -/
theorem C41_depended_partial {cfg : Config} {m : Manager} (h : Reachable cfg m) (hc : m.closed = false) {f : Bytes}
    {a b : List Trace} (he : m.log = a ++ .issued .unsubscribe f :: b) (i : Nat) : needs a i f = false :=
  ((reachable_minv h).usable hc f).safe a b he i

/-- Nor is there an operation that depends on a filter while an unsubscribe for it is outstanding. -/
theorem C41_unsubscribing_partial {cfg : Config} {m : Manager} (h : Reachable cfg m) (hc : m.closed = false) {f : Bytes}
    (ho : outstanding m.log .unsubscribe f > 0) (i : Nat) : needs m.log i f = false := by
  have hp := (reachable_minv h).usable hc f
  cases hn : needs m.log i f with
  | false => rfl
  | true =>
    obtain ⟨r, hr, hi⟩ := hp.needed i hn
    have h2 := hp.unsub
    have hu : r.pending = .unsubscribing := by
      cases hx : r.pending <;> simp [hr, hx] at h2 <;> first | rfl | omega
    rw [hp.unused r hr hu] at hi
    cases hi

/-- **C41** in all states, also after `clean_up`: at most one subscribe and at most one unsubscribe is outstanding. -/
theorem C41_always {cfg : Config} {m : Manager} (h : Reachable cfg m) (f : Bytes) :
    outstanding m.log .subscribe f ≤ 1 ∧ outstanding m.log .unsubscribe f ≤ 1 := by
  have hm := reachable_minv h
  have hb : Bounded f m.log := by
    cases hc : m.closed with
    | false => exact (hm.usable hc f).bounded
    | true => exact (hm.shut hc).2 f
  exact ⟨hb.sub_le, hb.unsub_le⟩

/-- A sequence of calls. -/
def rrRun (cfg : Config) (m : Manager) : List Event → Except Fault Manager
  | [] => .ok m
  | e :: es =>
    match step cfg m e with
    | .error x => .error x
    | .ok m => rrRun cfg m es

/-- Whether all calls of a sequence are enabled. -/
def rrEnabled (cfg : Config) (m : Manager) : List Event → Prop
  | [] => True
  | e :: es => Enabled m e ∧ match step cfg m e with
    | .error _ => True
    | .ok m => rrEnabled cfg m es

theorem rrRun_reachable {cfg : Config} {es : List Event} : ∀ {m m' : Manager}, Reachable cfg m → rrEnabled cfg m es →
    rrRun cfg m es = .ok m' → Reachable cfg m' := by
  induction es with
  | nil => intro m m' h _ e; cases e; exact h
  | cons e es ih =>
    intro m m' h he hr
    simp only [rrRun] at hr
    simp only [rrEnabled] at he
    split at hr
    · cases hr
    · rename_i m1 h1
      rw [h1] at he
      exact ih (h.step he.1 h1) he.2 hr

/-- Room for two request filters and one stream filter. -/
def rrCfg : Config := { maxRequest := 2, maxStream := 1 }

/-- **C41 does not hold** across `clean_up`: the unsubscribe is sent although the subscribe is not completed and an
operation depends on the filter. -/
theorem C41_violated_shutdown : ∃ m, Reachable rrCfg m ∧ outstanding m.log .subscribe [97] = 1 ∧
    outstanding m.log .unsubscribe [97] = 1 ∧ needs m.log 7 [97] = true := by
  refine ⟨_, rrRun_reachable (es := [.acquire {} [[97]] 7 .request, .cleanUp {}]) (.new true) ?_ rfl, ?_, ?_, ?_⟩
  · exact ⟨rfl, rfl, trivial⟩
  · decide +kernel
  · decide +kernel
  · decide +kernel

/-- A history with a request, a release and a purge: the unsubscribe is issued after the release only. -/
def rrHistory : List Event :=
  [.acquire {} [[97]] 7 .request, .finished {} [97] .subscribe true false, .purge {}, .release [[97]] 7, .purge {}]

example : ∃ m, Reachable rrCfg m ∧ m.closed = false ∧ outstanding m.log .unsubscribe [97] > 0 ∧
    .issued .unsubscribe [97] ∈ m.log := by
  refine ⟨_, rrRun_reachable (es := rrHistory) (.new true) ?_ rfl, ?_, ?_, ?_⟩
  · exact ⟨rfl, ⟨rfl, by decide +kernel⟩, rfl, rfl, rfl, trivial⟩
  · decide +kernel
  · decide +kernel
  · decide +kernel

end Mqtt.Props
