import Verif.Props.C41

/-! C42: the subscription budgets of the request-response client. -/
namespace Mqtt.Props
open Mqtt.Rr

/-- **C42**: the manager never has more records of a kind than configured. -/
theorem C42_records {cfg : Config} {m : Manager} (h : Reachable cfg m) (k : Kind) :
    (m.records.filter fun e => e.2.kind == k).length ≤ cfg.max k := by
  have := count_le (reachable_minv h) k
  rwa [count, List.countP_eq_length_filter] at this

theorem length_le_of_subset {l l' : List Bytes} (hn : l.Nodup) (h : ∀ x ∈ l, x ∈ l') : l.length ≤ l'.length := by
  induction l generalizing l' with
  | nil => exact Nat.zero_le _
  | cons a l ih =>
    have ha := h a (by simp)
    have h1 := ih (l' := l'.erase a) (List.nodup_cons.1 hn).2 (by
      intro x hx
      refine (List.mem_erase_of_ne ?_).2 (h x (by simp [hx]))
      intro e; subst e
      exact (List.nodup_cons.1 hn).1 hx)
    rw [List.length_erase_of_mem ha] at h1
    have := List.length_pos_of_mem ha
    simp only [List.length_cons]
    omega

/-- **C42**: among any set of distinct filters, no more than configured of a kind are held: the server has the
subscription, or a call for it is not completed. -/
theorem C42 {cfg : Config} {m : Manager} (h : Reachable cfg m) (hc : m.closed = false) (k : Kind) {fs : List Bytes}
    (hn : fs.Nodup) (hf : ∀ f ∈ fs, holds m.log f ∧ kindOf m.log f = some k) : fs.length ≤ cfg.max k := by
  refine Nat.le_trans ?_ (C42_records h k)
  rw [← List.length_map (f := Prod.fst)]
  apply length_le_of_subset hn
  intro f hm
  obtain ⟨hh, hk⟩ := hf f hm
  have hp := (reachable_minv h).usable hc f
  have hr : ∃ r, m.records.get f = some r := by
    rcases hh with hb | ho | ho
    · obtain ⟨r, hr, _⟩ := hp.server hb; exact ⟨r, hr⟩
    · cases hr : m.records.get f with
      | some r => exact ⟨r, rfl⟩
      | none => have := hp.sub; rw [hr] at this; simp at this; omega
    · cases hr : m.records.get f with
      | some r => exact ⟨r, rfl⟩
      | none => have := hp.unsub; rw [hr] at this; simp at this; omega
  obtain ⟨r, hr⟩ := hr
  have hkind := hp.kind r hr
  rw [hk] at hkind
  rw [List.mem_map]
  refine ⟨(f, r), List.mem_filter.2 ⟨AMap.get_some_mem hr, ?_⟩, rfl⟩
  simp only [Option.some.injEq] at hkind
  simp [hkind]

/-- A request that would need a third request filter is not let in; one for the two existing filters is. -/
example : ∃ m, Reachable rrCfg m ∧ m.closed = false ∧ (∀ f ∈ [[97], [98]], holds m.log f ∧ kindOf m.log f = some .request) ∧
    (m.acquire rrCfg {} [[99]] 9 .request).map Prod.fst = .ok .blocked ∧
    (m.acquire rrCfg {} [[97], [98]] 9 .request).map Prod.fst = .ok .subscribing ∧
    (m.acquire rrCfg {} [[99]] 9 .stream).map Prod.fst = .ok .subscribing := by
  refine ⟨_, rrRun_reachable (es := [.acquire {} [[97], [98]] 7 .request, .finished {} [97] .subscribe true false])
    (.new true) ?_ rfl, ?_, ?_, ?_, ?_, ?_⟩
  · exact ⟨rfl, ⟨rfl, by decide +kernel⟩, trivial⟩
  · decide +kernel
  · intro f hf
    rcases List.mem_cons.1 hf with rfl | hf
    · exact ⟨.inl (by decide +kernel), by decide +kernel⟩
    · rcases List.mem_singleton.1 hf with rfl
      exact ⟨.inr (.inl (by decide +kernel)), by decide +kernel⟩
  · decide +kernel
  · decide +kernel
  · decide +kernel

end Mqtt.Props
