/-!
Finite maps as association lists: the model of `aws_hash_table` (aws-c-common), whose iteration
order is unspecified and never used by a theorem.
-/
namespace Mqtt

/-- A finite map. Keys are kept distinct by `set` (see `AMap.Nodup`). -/
abbrev AMap (K V : Type) := List (K × V)

namespace AMap
variable {K V W : Type} [DecidableEq K]

/-- Value at a key. -/
def get (m : AMap K V) (k : K) : Option V :=
  match m with
  | [] => none
  | (k', v) :: m => if k' = k then some v else get m k

/-- Remove a key. -/
def del (m : AMap K V) (k : K) : AMap K V := m.filter (fun e => e.1 ≠ k)

/-- Insert or overwrite. -/
def set (m : AMap K V) (k : K) (v : V) : AMap K V := (k, v) :: del m k

def keys (m : AMap K V) : List K := m.map (·.1)

@[simp] theorem get_nil (k : K) : get ([] : AMap K V) k = none := rfl

theorem get_cons (k k' : K) (v : V) (m : AMap K V) : get ((k', v) :: m) k = if k' = k then some v else get m k := rfl

theorem get_del (m : AMap K V) (k k' : K) : get (del m k) k' = if k' = k then none else get m k' := by
  induction m with
  | nil => simp [del, get]
  | cons e m ih =>
    obtain ⟨a, v⟩ := e
    simp only [del, List.filter_cons] at ih ⊢
    by_cases h : a = k
    · subst h
      simp only [ne_eq, not_true_eq_false, decide_false, Bool.false_eq_true, if_false, ih, get_cons]
      by_cases h2 : k' = a
      · simp [h2]
      · rw [if_neg h2, if_neg h2, if_neg (fun e => h2 e.symm)]
    · simp only [ne_eq, h, not_false_eq_true, decide_true, if_true, get_cons, ih]
      by_cases h2 : k' = k
      · subst h2; simp [h]
      · simp [h2]

theorem get_set (m : AMap K V) (k k' : K) (v : V) : get (set m k v) k' = if k' = k then some v else get m k' := by
  rw [set, get_cons, get_del]
  by_cases h : k' = k
  · simp [h]
  · rw [if_neg (fun e => h e.symm), if_neg h, if_neg h]

@[simp] theorem get_set_same (m : AMap K V) (k : K) (v : V) : get (set m k v) k = some v := by simp [get_set]
@[simp] theorem get_del_same (m : AMap K V) (k : K) : get (del m k) k = none := by simp [get_del]

theorem get_some_mem {m : AMap K V} {k : K} {v : V} (h : get m k = some v) : (k, v) ∈ m := by
  induction m with
  | nil => simp at h
  | cons e m ih =>
    obtain ⟨a, w⟩ := e
    rw [get_cons] at h
    split at h
    · simp_all
    · simp [ih h]

theorem get_isSome_iff {m : AMap K V} {k : K} : (get m k).isSome ↔ ∃ v, (k, v) ∈ m := by
  constructor
  · intro h
    obtain ⟨v, hv⟩ := Option.isSome_iff_exists.1 h
    exact ⟨v, get_some_mem hv⟩
  · rintro ⟨v, hv⟩
    induction m with
    | nil => simp at hv
    | cons e m ih =>
      obtain ⟨a, w⟩ := e
      rw [get_cons]
      split
      · simp
      · next h =>
        simp only [List.mem_cons, Prod.mk.injEq] at hv
        rcases hv with ⟨rfl, _⟩ | hv
        · exact absurd rfl h
        · exact ih hv

theorem get_ne_none_iff {m : AMap K V} {k : K} : get m k ≠ none ↔ k ∈ keys m := by
  rw [← Option.isSome_iff_ne_none, get_isSome_iff]
  simp [keys]

/-- All keys are distinct. -/
def Nodup (m : AMap K V) : Prop := (keys m).Nodup

omit [DecidableEq K] in
theorem nodup_nil : Nodup ([] : AMap K V) := List.nodup_nil

theorem nodup_del {m : AMap K V} (h : Nodup m) (k : K) : Nodup (del m k) :=
  List.Nodup.sublist (List.Sublist.map _ List.filter_sublist) h

theorem nodup_set {m : AMap K V} (h : Nodup m) (k : K) (v : V) : Nodup (set m k v) := by
  unfold Nodup keys set
  rw [List.map_cons, List.nodup_cons]
  refine ⟨?_, nodup_del h k⟩
  simp [del]

theorem mem_iff_get {m : AMap K V} (h : Nodup m) {k : K} {v : V} : (k, v) ∈ m ↔ get m k = some v := by
  refine ⟨?_, get_some_mem⟩
  induction m with
  | nil => simp
  | cons e m ih =>
    obtain ⟨a, w⟩ := e
    unfold Nodup keys at h
    rw [List.map_cons, List.nodup_cons] at h
    intro hm
    rw [get_cons]
    simp only [List.mem_cons, Prod.mk.injEq] at hm
    rcases hm with ⟨rfl, rfl⟩ | hm
    · simp
    · rw [if_neg]
      · exact ih h.2 hm
      · rintro rfl
        exact h.1 (List.mem_map.2 ⟨_, hm, rfl⟩)

theorem del_of_get_none {m : AMap K V} {k : K} (h : get m k = none) : del m k = m := by
  have : k ∉ keys m := fun hk => get_ne_none_iff.2 hk h
  unfold del
  rw [List.filter_eq_self]
  intro e he
  simp only [ne_eq, decide_not, Bool.not_eq_eq_eq_not, Bool.not_true, decide_eq_false_iff_not]
  rintro rfl
  exact this (List.mem_map.2 ⟨_, he, rfl⟩)

/-- Taking out the entry at `k` leaves the rest: the multiset view used for counting. -/
theorem perm_del {m : AMap K V} (h : Nodup m) {k : K} {v : V} (hk : get m k = some v) :
    m.Perm ((k, v) :: del m k) := by
  induction m with
  | nil => simp at hk
  | cons e m ih =>
    obtain ⟨a, w⟩ := e
    have h' := h
    unfold Nodup keys at h
    rw [List.map_cons, List.nodup_cons] at h
    rw [get_cons] at hk
    split at hk
    · next e =>
      subst e
      simp only [Option.some.injEq] at hk
      subst hk
      have hn : get m a = none := by
        cases hg : get m a with
        | none => rfl
        | some x => exact absurd (get_ne_none_iff.1 (by simp [hg])) h.1
      have : del ((a, w) :: m) a = m := by
        have := del_of_get_none hn
        simp only [del] at this ⊢
        rw [List.filter_cons_of_neg (by simp), this]
      rw [this]
    · next hne =>
      have := ih h.2 hk
      have e2 : del ((a, w) :: m) k = (a, w) :: del m k := by simp [del, hne]
      rw [e2]
      exact (this.cons _).trans (List.Perm.swap _ _ _)

theorem perm_set {m : AMap K V} (k : K) (v : V) (hk : get m k = none) :
    (set m k v).Perm ((k, v) :: m) := by
  rw [set, del_of_get_none hk]

theorem get_perm {m m' : AMap K V} (h : Nodup m) (hp : m'.Perm m) (k : K) : get m' k = get m k := by
  have h' : Nodup m' := (hp.map _).nodup_iff.2 h
  cases hg : get m k with
  | some v => exact (mem_iff_get h').1 (hp.mem_iff.2 ((mem_iff_get h).2 hg))
  | none =>
    cases hg' : get m' k with
    | none => rfl
    | some v => rw [(mem_iff_get h).1 (hp.mem_iff.1 ((mem_iff_get h').2 hg'))] at hg; cases hg

omit [DecidableEq K] in
theorem nodup_perm {m m' : AMap K V} (h : Nodup m) (hp : m'.Perm m) : Nodup m' := (hp.map _).nodup_iff.2 h

theorem set_set (m : AMap K V) (k : K) (v w : V) : set (set m k v) k w = set m k w := by
  simp [set, del]

end AMap
end Mqtt
