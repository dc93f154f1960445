import Verif.TopicAlias
import Verif.Spec.TopicAlias

/-! Outbound topic aliases: client and server agree. -/
namespace Mqtt.TopicAlias

open Mqtt.Spec

/-- Client and server agree. -/
inductive AliasInv : Behavior → Outbound → AliasServer → Prop where
  | disabled {s} : AliasInv .disabled .disabled s
  | manual {al s} : al.length = s.max → (∀ i t, al[i]?.join = some t → t ≠ [] ∧ s.known (i + 1) = some t) →
      AliasInv .manual (.manual al) s
  | lruOff {s} : s.max = 0 → AliasInv .lru (.lru none 0) s
  | lru {c m s} : s.max = m → 0 < s.max → s.max < 65536 → c.length ≤ s.max → (c.map (·.1)).Nodup →
      (c.map (·.2)).Perm (List.range' 1 c.length) → (∀ e ∈ c, s.known e.2 = some e.1) →
      AliasInv .lru (.lru (some c) m) s

theorem aliasInv_reset {b : Behavior} {r : Outbound} {s : AliasServer} (h : AliasInv b r s) {m : Nat}
    (hm : m < 65536) : AliasInv b (r.reset m) (.fresh m) := by
  cases h with
  | disabled => exact .disabled
  | manual =>
    refine .manual (by simp [AliasServer.fresh]) ?_
    intro i t hi
    rw [List.getElem?_replicate] at hi
    split at hi <;> simp at hi
  | lruOff | lru =>
    all_goals
      simp only [Outbound.reset]
      by_cases h0 : m > 0
      · rw [if_pos h0]
        exact .lru (c := []) rfl h0 hm (Nat.zero_le _) (by simp) (by simp) (by simp)
      · have : m = 0 := by omega
        subst this
        rw [if_neg h0]
        exact .lruOff rfl

theorem manual_step {al : List (Option Bytes)} {s : AliasServer} (hl : al.length = s.max)
    (hk : ∀ i t, al[i]?.join = some t → t ≠ [] ∧ s.known (i + 1) = some t) (t : Bytes) (ht : t ≠ []) (a : Option Nat) :
    (beginPublish (.manual al) t a = .refused ∧ ∃ n, a = some n ∧ (n = 0 ∨ n > s.max)) ∨
    ∃ r' t' a' s', beginPublish (.manual al) t a = .ok r' t' a' ∧ s.receive t' a' = some (s', t) ∧
      AliasInv .manual r' s' ∧ s'.max = s.max := by
  have hlen : t.length > 0 := List.length_pos_iff.2 ht
  cases a with
  | none =>
    right
    refine ⟨.manual al, t, none, s, ?_, ?_, .manual hl hk, rfl⟩
    · simp [beginPublish, Outbound.resolve, resolveManual, ht]
    · simp [AliasServer.receive, ht]
  | some n =>
    by_cases h0 : n = 0
    · left; subst h0
      exact ⟨by simp [beginPublish, Outbound.resolve, resolveManual], 0, rfl, .inl rfl⟩
    by_cases hn : n - 1 ≥ al.length
    · left
      exact ⟨by simp only [beginPublish, Outbound.resolve, resolveManual, if_neg h0, if_pos hn], n, rfl, .inr (by omega)⟩
    right
    have hrange : ¬ (n = 0 ∨ n > s.max) := by omega
    have hn1 : n - 1 + 1 = n := by omega
    by_cases hsame : al[n - 1]?.join = some t
    · refine ⟨.manual al, [], some n, s, ?_, ?_, .manual hl hk, rfl⟩
      · simp only [beginPublish, Outbound.resolve, resolveManual, if_neg h0, if_neg hn, if_pos hsame]
        rw [if_pos h0]
      · have := (hk _ _ hsame).2
        rw [hn1] at this
        simp only [AliasServer.receive, if_neg hrange, if_true, this, Option.map_some]
    · refine ⟨.manual (al.set (n - 1) (some t)), t, some n,
        { s with known := fun b => if b = n then some t else s.known b }, ?_, ?_, .manual ?_ ?_, rfl⟩
      · simp only [beginPublish, Outbound.resolve, resolveManual, if_neg h0, if_neg hn, if_neg hsame]
        rw [if_pos h0]
      · simp only [AliasServer.receive, if_neg hrange, if_neg ht]
      · simpa using hl
      · intro i u hi
        rw [List.getElem?_set] at hi
        by_cases hin : n - 1 = i
        · subst hin
          rw [if_pos rfl, if_pos (by omega)] at hi
          simp only [Option.join_some, Option.some.injEq] at hi
          subst hi
          exact ⟨ht, by simp [hn1]⟩
        · rw [if_neg hin] at hi
          obtain ⟨h1, h2⟩ := hk i u hi
          refine ⟨h1, ?_⟩
          simp only
          rw [if_neg (by omega)]
          exact h2

theorem filter_notin {c : List (Bytes × Nat)} {t : Bytes} (h : t ∉ c.map (·.1)) : c.filter (fun x => x.1 ≠ t) = c := by
  rw [List.filter_eq_self]
  intro e he
  simp only [ne_eq, decide_not, Bool.not_eq_eq_eq_not, Bool.not_true, decide_eq_false_iff_not]
  rintro rfl
  exact h (List.mem_map_of_mem he)

theorem perm_to_back {c : List (Bytes × Nat)} (h : (c.map (·.1)).Nodup) {e : Bytes × Nat} (he : e ∈ c) :
    (c.filter (fun x => x.1 ≠ e.1) ++ [e]).Perm c := by
  induction c with
  | nil => cases he
  | cons x c ih =>
    rw [List.map_cons, List.nodup_cons] at h
    rw [List.mem_cons] at he
    rcases he with rfl | he
    · rw [List.filter_cons_of_neg (by simp), filter_notin h.1]
      exact List.perm_append_comm
    · have hne : x.1 ≠ e.1 := by
        intro hx; exact h.1 (hx ▸ List.mem_map_of_mem he)
      rw [List.filter_cons_of_pos (by simpa using hne), List.cons_append]
      exact (ih h.2 he).cons x

theorem lru_step {c : List (Bytes × Nat)} {s : AliasServer} (h0 : 0 < s.max) (h1 : s.max < 65536)
    (h2 : c.length ≤ s.max) (h3 : (c.map (·.1)).Nodup) (h4 : (c.map (·.2)).Perm (List.range' 1 c.length))
    (h5 : ∀ e ∈ c, s.known e.2 = some e.1) (t : Bytes) (ht : t ≠ []) (a : Option Nat) :
    ∃ r' t' a' s', beginPublish (.lru (some c) s.max) t a = .ok r' t' a' ∧ s.receive t' a' = some (s', t) ∧
      AliasInv .lru r' s' ∧ s'.max = s.max := by
  have hrange : ∀ e ∈ c, 1 ≤ e.2 ∧ e.2 ≤ c.length := by
    intro e he
    have := (h4.mem_iff (a := e.2)).1 (List.mem_map_of_mem he)
    rw [List.mem_range'_1] at this
    omega
  have hmax : ¬ s.max = 0 := by omega
  simp only [beginPublish, Outbound.resolve, if_neg hmax, resolveLru, cacheFind]
  cases hf : c.find? (fun e => e.1 = t) with
  | some e =>
    -- the topic has an alias
    have he := List.mem_of_find?_eq_some hf
    have het : e.1 = t := by simpa using List.find?_some hf
    subst het
    obtain ⟨r1, r2⟩ := hrange e he
    have hne : e.2 ≠ 0 := by omega
    have hp := perm_to_back h3 he
    simp only [if_pos hne]
    refine ⟨_, _, _, s, rfl, ?_, .lru rfl h0 h1 ?_ ?_ ?_ ?_, rfl⟩
    · have : ¬ (e.2 = 0 ∨ e.2 > s.max) := by omega
      simp only [AliasServer.receive, if_neg this, if_true, h5 e he, Option.map_some]
    · rw [hp.length_eq]; exact h2
    · exact (hp.map (·.1)).nodup_iff.2 h3
    · rw [hp.length_eq]; exact (hp.map (·.2)).trans h4
    · intro x hx; exact h5 x (hp.mem_iff.1 hx)
  | none =>
    have hnew : t ∉ c.map (·.1) := by
      intro hm
      obtain ⟨e, he, hte⟩ := List.mem_map.1 hm
      have := List.find?_eq_none.1 hf e he
      exact this (by simpa using hte)
    simp only
    by_cases hfull : c.length = s.max
    · -- the least recently used alias is taken over
      rw [if_pos hfull]
      cases c with
      | nil => simp only [List.length_nil] at hfull; omega
      | cons e c =>
        obtain ⟨r1, r2⟩ := hrange e (by simp)
        have hne : e.2 ≠ 0 := by omega
        rw [List.map_cons, List.nodup_cons] at h3
        rw [List.map_cons, List.mem_cons, not_or] at hnew
        have hrem : cacheRemove (c ++ [e]) e.1 = c := by
          unfold cacheRemove
          rw [List.filter_append, filter_notin h3.1]
          simp
        have hput : cachePut s.max c t e.2 = c ++ [(t, e.2)] := by
          have h := filter_notin hnew.2
          simp only [cachePut, cacheRemove, h]
          rw [if_neg (by simp only [List.length_append, List.length_singleton]; simp only [List.length_cons] at hfull; omega)]
        simp only [cacheUseLru, hrem, hput, if_pos hne]
        have hperm : ((c ++ [(t, e.2)]).map (·.2)).Perm ((e :: c).map (·.2)) := by
          simp only [List.map_append, List.map_cons, List.map_nil]
          exact List.perm_append_comm
        refine ⟨_, _, _, { s with known := fun b => if b = e.2 then some t else s.known b }, rfl, ?_,
          .lru rfl h0 h1 ?_ ?_ ?_ ?_, rfl⟩
        · have : ¬ (e.2 = 0 ∨ e.2 > s.max) := by omega
          simp only [AliasServer.receive, if_neg this, if_neg ht]
        · simp only [List.length_append, List.length_singleton]; simp only [List.length_cons] at h2; exact h2
        · rw [List.map_append, List.map_cons, List.map_nil, List.nodup_append]
          refine ⟨h3.2, by simp, ?_⟩
          intro x hx y hy
          rw [List.mem_singleton] at hy
          subst hy
          rintro rfl
          exact hnew.2 hx
        · have : (c ++ [(t, e.2)]).length = (e :: c).length := by simp
          rw [this]
          exact hperm.trans h4
        · intro x hx
          rw [List.mem_append, List.mem_singleton] at hx
          rcases hx with hx | rfl
          · have hnd : ((e :: c).map (·.2)).Nodup := h4.nodup_iff.2 (List.nodup_range' ..)
            rw [List.map_cons, List.nodup_cons] at hnd
            have hxe : x.2 ≠ e.2 := by
              intro hxe; exact hnd.1 (hxe ▸ List.mem_map_of_mem hx)
            simp only [if_neg hxe]
            exact h5 x (by simp [hx])
          · simp
    · -- a new alias
      rw [if_neg hfull]
      have hmod : (c.length + 1) % 65536 = c.length + 1 := Nat.mod_eq_of_lt (by omega)
      have hput : cachePut s.max c t (c.length + 1) = c ++ [(t, c.length + 1)] := by
        have h := filter_notin hnew
        simp only [cachePut, cacheRemove, h]
        rw [if_neg (by simp only [List.length_append, List.length_singleton]; omega)]
      have hne : c.length + 1 ≠ 0 := by omega
      simp only [hmod, hput, if_pos hne]
      refine ⟨_, _, _, { s with known := fun b => if b = c.length + 1 then some t else s.known b }, rfl, ?_,
        .lru rfl h0 h1 ?_ ?_ ?_ ?_, rfl⟩
      · have : ¬ (c.length + 1 = 0 ∨ c.length + 1 > s.max) := by omega
        simp only [AliasServer.receive, if_neg this, if_neg ht]
      · simp only [List.length_append, List.length_singleton]; omega
      · rw [List.map_append, List.map_cons, List.map_nil, List.nodup_append]
        refine ⟨h3, by simp, ?_⟩
        intro x hx y hy
        rw [List.mem_singleton] at hy
        subst hy
        rintro rfl
        exact hnew hx
      · rw [List.map_append, List.length_append, List.length_singleton, List.map_cons, List.map_nil, List.range'_1_concat,
          Nat.add_comm 1 c.length]
        exact h4.append_right _
      · intro x hx
        rw [List.mem_append, List.mem_singleton] at hx
        rcases hx with hx | rfl
        · obtain ⟨r1, r2⟩ := hrange x hx
          have hxe : x.2 ≠ c.length + 1 := by omega
          simp only [if_neg hxe]
          exact h5 x hx
        · simp

theorem alias_step {b : Behavior} {r : Outbound} {s : AliasServer} (h : AliasInv b r s) (t : Bytes) (ht : t ≠ [])
    (a : Option Nat) :
    (b = .manual ∧ beginPublish r t a = .refused ∧ ∃ n, a = some n ∧ (n = 0 ∨ n > s.max)) ∨
    ∃ r' t' a' s', beginPublish r t a = .ok r' t' a' ∧ s.receive t' a' = some (s', t) ∧
      AliasInv b r' s' ∧ s'.max = s.max := by
  cases h with
  | disabled =>
    right
    refine ⟨.disabled, t, none, s, ?_, ?_, .disabled, rfl⟩
    · simp [beginPublish, Outbound.resolve, ht]
    · simp [AliasServer.receive, ht]
  | manual hl hk =>
    rcases manual_step hl hk t ht a with ⟨h1, h2⟩ | h
    · exact .inl ⟨rfl, h1, h2⟩
    · exact .inr h
  | lruOff h0 =>
    right
    refine ⟨.lru none 0, t, none, s, ?_, ?_, .lruOff h0, rfl⟩
    · simp [beginPublish, Outbound.resolve, ht]
    · simp [AliasServer.receive, ht]
  | lru hm h0 h1 h2 h3 h4 h5 => subst hm; exact .inr (lru_step h0 h1 h2 h3 h4 h5 t ht a)

end Mqtt.TopicAlias
