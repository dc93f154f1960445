import Verif.Spec.Lru
import Verif.Lemmas.TopicAlias

/-!
The topics the cache of the LRU alias resolver holds.
-/
namespace Mqtt.TopicAlias

open Mqtt.Spec

theorem byUse_one (ts : List Bytes) (t : Bytes) : byUse (ts ++ [t]) = t :: (byUse ts).filter (· ≠ t) := by
  simp [byUse]

theorem nodup_use {l : List Bytes} (h : l.Nodup) (t : Bytes) : (t :: l.filter (· ≠ t)).Nodup := by
  rw [List.nodup_cons]
  exact ⟨by simp, h.filter _⟩

theorem filter_ne_self {l : List Bytes} {t : Bytes} (h : t ∉ l) : l.filter (· ≠ t) = l :=
  List.filter_eq_self.2 fun x hx => by
    simp only [ne_eq, decide_not, Bool.not_eq_true', decide_eq_false_iff_not]
    rintro rfl
    exact h hx

/-- A topic among the first is moved to the front. -/
theorem take_use {l : List Bytes} (h : l.Nodup) {t : Bytes} {m : Nat} (ht : t ∈ l.take m) :
    (t :: l.filter (· ≠ t)).take m = t :: (l.take m).filter (· ≠ t) := by
  induction l generalizing m with
  | nil => simp at ht
  | cons x l ih =>
    cases m with
    | zero => simp at ht
    | succ m =>
      rw [List.nodup_cons] at h
      simp only [List.take_succ_cons, List.cons.injEq, true_and]
      by_cases hx : x = t
      · subst hx
        have h1 : x ∉ l.take m := fun hm => h.1 (List.mem_of_mem_take hm)
        rw [List.filter_cons_of_neg (by simp), List.filter_cons_of_neg (by simp), filter_ne_self h.1, filter_ne_self h1]
      · have ht' : t ∈ l.take m := by simpa [List.take_succ_cons, Ne.symm hx] using ht
        have h1 := ih h.2 ht'
        cases m with
        | zero => simp at ht'
        | succ k =>
          simp only [List.take_succ_cons, List.cons.injEq, true_and] at h1
          rw [List.filter_cons_of_pos (by simpa using hx), List.filter_cons_of_pos (by simpa using hx), List.take_succ_cons,
            h1]

/-- Another topic pushes out what is too much. -/
theorem take_fresh {l : List Bytes} {t : Bytes} {m : Nat} (ht : t ∉ l.take (m + 1)) :
    (t :: l.filter (· ≠ t)).take (m + 1) = t :: l.take m := by
  simp only [List.take_succ_cons, List.cons.injEq, true_and]
  induction l generalizing m with
  | nil => simp
  | cons x l ih =>
    have hx : x ≠ t := by rintro rfl; simp at ht
    rw [List.filter_cons_of_pos (by simpa using hx)]
    cases m with
    | zero => simp
    | succ m =>
      simp only [List.take_succ_cons]
      rw [ih]
      intro hm
      exact ht (by rw [List.take_succ_cons]; exact List.mem_cons_of_mem _ hm)

theorem map_filter_keys (c : List (Bytes × Nat)) (t : Bytes) :
    (c.filter fun x => x.1 ≠ t).map (·.1) = (c.map (·.1)).filter (· ≠ t) := by
  rw [List.filter_map]
  rfl

/-- What a use does to the topics in the cache. -/
theorem lru_keys {c : List (Bytes × Nat)} {m : Nat} {t t' : Bytes} {a : Nat} {r : Outbound} {l : List Bytes} (hm : 0 < m)
    (hl : l.Nodup) (hk : (c.map (·.1)).reverse = l.take m) (h : resolveLru c m t = some (r, a, t')) :
    ∃ c', r = .lru (some c') m ∧ (c'.map (·.1)).reverse = (t :: l.filter (· ≠ t)).take m ∧
      t' = if t ∈ l.take m then [] else t := by
  have hmem : ∀ x, x ∈ c.map (·.1) ↔ x ∈ l.take m := by intro x; rw [← hk, List.mem_reverse]
  have hnd : (c.map (·.1)).Nodup := by
    have : (l.take m).Nodup := hl.sublist (List.take_sublist ..)
    rw [← hk] at this
    exact (List.pairwise_reverse.1 this).imp fun h => Ne.symm h
  have hlen : c.length = (l.take m).length := by rw [← hk]; simp
  obtain ⟨n, rfl⟩ : ∃ n, m = n + 1 := ⟨m - 1, by omega⟩
  unfold resolveLru cacheFind at h
  cases hf : c.find? (fun e => e.1 = t) with
  | some e =>
    simp only [hf, Option.some.injEq, Prod.mk.injEq] at h
    obtain ⟨rfl, rfl, rfl⟩ := h
    have he : e.1 = t := by simpa using List.find?_some hf
    have hin : t ∈ l.take (n + 1) := (hmem t).1 (List.mem_map.2 ⟨e, List.mem_of_find?_eq_some hf, he⟩)
    refine ⟨_, rfl, ?_, by rw [if_pos hin]⟩
    rw [take_use hl hin, List.map_append, map_filter_keys, List.reverse_append, ← List.filter_reverse, hk]
    simp [he]
  | none =>
    have hout : t ∉ l.take (n + 1) := by
      intro hx
      obtain ⟨e, he, het⟩ := List.mem_map.1 ((hmem t).2 hx)
      have := List.find?_eq_none.1 hf e he
      simp [het] at this
    have hrem : ∀ d : List (Bytes × Nat), (∀ x ∈ d, x ∈ c) → cacheRemove d t = d := by
      intro d hd
      refine List.filter_eq_self.2 fun x hx => ?_
      have := List.find?_eq_none.1 hf x (hd x hx)
      simpa using this
    simp only [hf] at h
    rw [take_fresh hout, if_neg hout]
    split at h
    · rename_i hfull
      cases hc : c with
      | nil => rw [hc] at hfull; simp at hfull
      | cons e d =>
        rw [hc] at h
        simp only [cacheUseLru, Option.some.injEq, Prod.mk.injEq] at h
        obtain ⟨rfl, rfl, rfl⟩ := h
        have hd : cacheRemove (d ++ [e]) e.1 = d := by
          rw [hc, List.map_cons, List.nodup_cons] at hnd
          unfold cacheRemove
          rw [List.filter_append, List.filter_cons_of_neg (by simp), List.filter_nil, List.append_nil]
          refine List.filter_eq_self.2 fun x hx => ?_
          have : x.1 ≠ e.1 := fun hxe => hnd.1 (hxe ▸ List.mem_map_of_mem hx)
          simpa using this
        rw [hd]
        have hput : cachePut (n + 1) d t e.2 = d ++ [(t, e.2)] := by
          unfold cachePut
          simp only
          rw [hrem d (fun x hx => by rw [hc]; simp [hx]), if_neg]
          rw [hc] at hfull
          simp only [List.length_append, List.length_cons, List.length_nil] at hfull ⊢
          omega
        rw [hput]
        refine ⟨_, rfl, ?_, rfl⟩
        rw [hc] at hk hfull
        simp only [List.map_cons, List.reverse_cons] at hk
        have hlen' : (d.map (·.1)).reverse.length = n := by simp only [List.length_cons] at hfull; simp; omega
        have h1 : (d.map (·.1)).reverse = l.take n := by
          have := congrArg (List.take n) hk
          rw [List.take_take, Nat.min_eq_left (by omega), List.take_append_of_le_length (by omega),
            List.take_of_length_le (by omega)] at this
          exact this
        rw [List.map_append, List.reverse_append, h1]
        rfl
    · rename_i hfull
      simp only [Option.some.injEq, Prod.mk.injEq] at h
      obtain ⟨rfl, rfl, rfl⟩ := h
      have hle : c.length ≤ n := by
        rw [List.length_take] at hlen
        omega
      have hput : ∀ b, cachePut (n + 1) c t b = c ++ [(t, b)] := by
        intro b
        unfold cachePut
        simp only
        rw [hrem c (fun _ h => h), if_neg]
        simp only [List.length_append, List.length_cons, List.length_nil]
        omega
      rw [hput]
      refine ⟨_, rfl, ?_, rfl⟩
      have h1 : (c.map (·.1)).reverse = l.take n := by
        rw [hk]
        rw [List.length_take] at hlen
        rw [List.take_of_length_le (by omega), List.take_of_length_le (by omega)]
      rw [List.map_append, List.reverse_append, h1]
      rfl

/-- The aliases of the cache are positive. -/
theorem lru_positive {c : List (Bytes × Nat)} {m : Nat} {t t' : Bytes} {a : Nat} {r : Outbound} {s : AliasServer}
    (hi : AliasInv .lru (.lru (some c) m) s) (h : resolveLru c m t = some (r, a, t')) : a ≠ 0 := by
  cases hi with
  | lru h1 h2 h3 h4 h5 h6 h7 =>
    have hpos : ∀ e ∈ c, e.2 ≠ 0 := by
      intro e he h0
      have := h6.mem_iff.1 (List.mem_map_of_mem (f := (·.2)) he)
      rw [h0, List.mem_range'] at this
      obtain ⟨i, _, hx⟩ := this
      omega
    unfold resolveLru cacheFind at h
    cases hf : c.find? (fun e => e.1 = t) with
    | some e =>
      simp only [hf, Option.some.injEq, Prod.mk.injEq] at h
      obtain ⟨_, rfl, _⟩ := h
      exact hpos e (List.mem_of_find?_eq_some hf)
    | none =>
      simp only [hf] at h
      split at h
      · cases hc : c with
        | nil => rw [hc] at h; cases h
        | cons e d =>
          rw [hc] at h
          simp only [cacheUseLru, Option.some.injEq, Prod.mk.injEq] at h
          obtain ⟨_, rfl, _⟩ := h
          exact hpos e (by rw [hc]; simp)
      · simp only [Option.some.injEq, Prod.mk.injEq] at h
        obtain ⟨_, rfl, _⟩ := h
        rw [Nat.mod_eq_of_lt (by omega)]
        omega

end Mqtt.TopicAlias
