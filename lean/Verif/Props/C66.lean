import Verif.Lemmas.AdapterEnd
import Verif.Lemmas.AdapterRun

/-! C66: adapter: the ids of operations are valid, and differ among operations in progress. -/
namespace Mqtt.Props
open Mqtt.Adapter

variable {s : Sys}

/-- The id returned for an operation is between 1 and 65535 and is not that of another operation in progress;
from then on the operation is in progress. -/
theorem C66_accepted (h : Adapter.Reachable s) {e : Event} {s' : Sys} (he : Adapter.Enabled s e) (hs : Adapter.step s e = .ok s')
    {call id : Nat} {k : Kind} (hn : s'.ad.log = s.ad.log ++ [.accepted call id k]) :
    1 ≤ id ∧ id ≤ 65535 ∧ s.ad.table.get id = none ∧ s'.ad.table.get id = some { call := call, kind := k } := by
  have tail : ∀ {n : Note}, s'.ad.log = s.ad.log ++ [n] → n = .accepted call id k := fun h => by
    have := List.append_cancel_left (h.symm.trans hn)
    injection this
  have hg := reachable_good h
  cases step_did hs with
  | refused => simp at hn
  | connect o _ _ => cases tail rfl
  | disconnect => cases tail rfl
  | add _ k' _ _ =>
    dsimp only at hn tail ⊢
    unfold Adapter.add at hn tail ⊢
    cases hf : findFree s.ad.table u16max s.ad.nextId with
    | none => simp [hf] at hn
    | some r =>
      simp only [hf] at hn tail ⊢
      have := tail rfl
      injection this with h1 h2 h3
      subst h1
      subst h2
      subst h3
      obtain ⟨h1, h2⟩ := findFree_some hf hg.table.next
      exact ⟨h2.1, h2.2, h1, AMap.get_set_same ..⟩
  | acquire => simp [Adapter.acquire] at hn
  | release =>
    rw [(release_counts s.ad).log] at hn
    simp at hn
  | run t ts _ ht hrun =>
    exfalso
    obtain ⟨_, hran⟩ := runTask_ran hrun
    have := (calls_ran hran).1 call
    unfold tally at this
    rw [hn, List.countP_append] at this
    simp [Note.calls] at this
  | client e c _ _ =>
    exfalso
    have := react_calls s c call
    unfold tally at this
    rw [hn, List.countP_append] at this
    simp [Note.calls] at this

/-- Ids of operations in progress are valid, and different operations have different ids. -/
theorem C66_distinct (h : Adapter.Reachable s) :
    (s.ad.table.map (·.1)).Nodup ∧ ∀ p ∈ s.ad.table, 1 ≤ p.1 ∧ p.1 ≤ 65535 := by
  have ht := (reachable_good h).table
  exact ⟨ht.nodup, fun p hp => ht.ids p.1 p.2 ((AMap.mem_iff_get ht.nodup).1 hp)⟩

/-- An operation that is in order is refused only if all ids are in use. (`valid`: a topic name or topic filter that the library
accepts.) -/
theorem C66_refused (h : Adapter.Reachable s) {topic payload : Bytes} {qos : Nat} {retain : Bool} (hq : qos ≤ 2)
    (hv : isValidTopic topic = true) {s' : Sys} (hs : Adapter.step s (.publish topic payload qos retain) = .ok s')
    (hn : ∀ id k, .accepted s.ad.calls id k ∉ s'.ad.log) : ∀ id, 1 ≤ id → id ≤ 65535 → ∃ op, s.ad.table.get id = some op := by
  have ht := (reachable_good h).table
  intro id h1 h2
  simp only [Adapter.step, Adapter.publish] at hs
  rw [if_neg (by omega), if_neg (by simp [hv])] at hs
  split at hs
  · cases hs
  · rename_i v _
    cases hs
    cases hf : findFree s.ad.table u16max s.ad.nextId with
    | none => exact findFree_full hf ht.next ⟨h1, h2⟩
    | some r =>
      refine absurd ?_ (hn r (.publish v))
      show _ ∈ (s.ad.add _).log
      unfold Adapter.add
      rw [hf]
      simp [Adapter.schedule, Adapter.note]

/-- Three operations in progress. -/
example : ∃ s, Adapter.Reachable s ∧ s.ad.table.map (·.1) = [3, 2, 1] := by
  obtain ⟨s, hr, ht⟩ := run_test (allow := fun _ _ => True) (cfg := {}) (es := [.run, .publish [97] [] 1 false,
      .subscribe [{ filter := [97] }] false, .unsubscribe [97]])
    (t := fun s => decide (s.ad.table.map (·.1) = [3, 2, 1])) (by decide +kernel)
  exact ⟨s, hr, of_decide_eq_true ht⟩

end Mqtt.Props
