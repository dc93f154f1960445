import Verif.Spec.Client311

/-! The table of requests of the 3.1.1 connection and what the log says about them. -/
namespace Mqtt.Client311

theorem completions_append (l l' : List Trace) (u : Nat) : completions (l ++ l') u = completions l u + completions l' u :=
  List.countP_append

theorem completions_one (u v : Nat) (o : Outcome) : completions [.completed v o] u = if v = u then 1 else 0 := by
  unfold completions
  by_cases h : v = u <;> simp [isCompletion, h]

theorem wasAccepted_append (l l' : List Trace) (u : Nat) :
    wasAccepted (l ++ l') u ↔ wasAccepted l u ∨ wasAccepted l' u := by
  simp only [wasAccepted, List.mem_append]
  constructor
  · rintro ⟨i, k, s, h | h⟩
    · exact .inl ⟨i, k, s, h⟩
    · exact .inr ⟨i, k, s, h⟩
  · rintro (⟨i, k, s, h⟩ | ⟨i, k, s, h⟩)
    · exact ⟨i, k, s, .inl h⟩
    · exact ⟨i, k, s, .inr h⟩

/-- Entries that neither accept nor complete a request. -/
def quiet : Trace → Bool
  | .accepted .. => false
  | .completed .. => false
  | _ => true

theorem completions_quiet {l : List Trace} (h : ∀ t ∈ l, quiet t = true) (u : Nat) : completions l u = 0 := by
  unfold completions
  rw [List.countP_eq_zero]
  intro t ht
  have := h t ht
  cases t <;> simp [quiet, isCompletion] at *

theorem wasAccepted_quiet {l : List Trace} (h : ∀ t ∈ l, quiet t = true) (u : Nat) : ¬ wasAccepted l u := by
  rintro ⟨i, k, s, hm⟩
  have := h _ hm
  simp [quiet] at this

/-- Requests `live` have not been completed, requests `done` have been and are still in the table. -/
structure Store (n : Nat) (reqs : AMap Nat Request) (table : AMap Nat Nat) (log : List Trace) (live done : List Nat) :
    Prop where
  keys : AMap.Nodup reqs
  tkeys : AMap.Nodup table
  below : ∀ u r, reqs.get u = some r → u < n
  range : ∀ u r, reqs.get u = some r → 1 ≤ r.id ∧ r.id ≤ 65535
  tab : ∀ id u, table.get id = some u ↔ ∃ r, reqs.get u = some r ∧ r.id = id
  places : ∀ u, (reqs.get u).isSome ↔ u ∈ live ∨ u ∈ done
  nodup : (live ++ done).Nodup
  once : ∀ u, completions log u = if u < n ∧ u ∉ live then 1 else 0
  acc : ∀ u, wasAccepted log u ↔ u < n
  told : ∀ u r, reqs.get u = some r → Trace.accepted u r.id r.kind r.size ∈ log
  uniq : ∀ u i k s i' k' s', Trace.accepted u i k s ∈ log → Trace.accepted u i' k' s' ∈ log → i = i' ∧ k = k' ∧ s = s'

theorem mem_quiet {log l : List Trace} (hq : ∀ t ∈ l, quiet t = true) {u i s : Nat} {k : Kind}
    (h : Trace.accepted u i k s ∈ log ++ l) : Trace.accepted u i k s ∈ log := by
  rcases List.mem_append.1 h with h | h
  · exact h
  · have := hq _ h
    simp [quiet] at this

namespace Store
variable {n : Nat} {reqs : AMap Nat Request} {table : AMap Nat Nat} {log : List Trace} {live done : List Nat}

theorem init : Store 0 [] [] [] [] [] where
  keys := AMap.nodup_nil
  tkeys := AMap.nodup_nil
  below := by intro u r h; simp at h
  range := by intro u r h; simp at h
  tab := by intro id u; simp
  places := by intro u; simp
  nodup := by simp
  once := by intro u; simp [completions]
  acc := by intro u; simp [wasAccepted]
  told := by intro u r h; simp at h
  uniq := by intro u i k s i' k' s' h; simp at h

theorem perm (h : Store n reqs table log live done) {live' done' : List Nat} (hl : live'.Perm live)
    (hd : done'.Perm done) : Store n reqs table log live' done' where
  keys := h.keys
  tkeys := h.tkeys
  below := h.below
  range := h.range
  tab := h.tab
  places := fun u => by rw [h.places, hl.mem_iff, hd.mem_iff]
  nodup := (hl.append hd).nodup_iff.2 h.nodup
  once := fun u => by simp only [h.once, hl.mem_iff]
  acc := h.acc
  told := h.told
  uniq := h.uniq

theorem tell (h : Store n reqs table log live done) {l : List Trace} (hq : ∀ t ∈ l, quiet t = true) :
    Store n reqs table (log ++ l) live done :=
  { h with
    once := fun u => by rw [completions_append, completions_quiet hq, Nat.add_zero, h.once]
    acc := fun u => by
      rw [wasAccepted_append, h.acc]
      constructor
      · rintro (h | h)
        · exact h
        · exact absurd h (wasAccepted_quiet hq u)
      · exact .inl
    told := fun u r hr => List.mem_append_left _ (h.told u r hr)
    uniq := fun u i k s i' k' s' h1 h2 => h.uniq u i k s i' k' s' (mem_quiet hq h1) (mem_quiet hq h2) }

theorem live_isSome (h : Store n reqs table log live done) {u : Nat} (hu : u ∈ live) : ∃ r, reqs.get u = some r :=
  Option.isSome_iff_exists.1 ((h.places u).2 (.inl hu))

theorem live_below (h : Store n reqs table log live done) {u : Nat} (hu : u ∈ live) : u < n := by
  obtain ⟨r, hr⟩ := h.live_isSome hu
  exact h.below u r hr

/-- Flags of a request are changed. -/
theorem update (h : Store n reqs table log live done) {u : Nat} {r r' : Request} (hr : reqs.get u = some r)
    (hid : r'.id = r.id) (hk : r'.kind = r.kind)
    (hz : r'.size = r.size) : Store n (reqs.set u r') table log live done where
  keys := AMap.nodup_set h.keys _ _
  tkeys := h.tkeys
  below := by
    intro v s hs
    rw [AMap.get_set] at hs
    split at hs
    · next e => subst e; exact h.below _ _ hr
    · exact h.below _ _ hs
  range := by
    intro v s hs
    rw [AMap.get_set] at hs
    split at hs
    · next e =>
      cases hs
      rw [hid]
      exact h.range _ _ hr
    · exact h.range _ _ hs
  tab := by
    intro id v
    rw [h.tab, AMap.get_set]
    by_cases e : v = u
    · subst e
      rw [if_pos rfl, hr]
      constructor
      · rintro ⟨s, hs, e2⟩
        cases hs
        exact ⟨r', rfl, by rw [hid, e2]⟩
      · rintro ⟨s, hs, e2⟩
        cases hs
        exact ⟨r, rfl, by rw [← hid, e2]⟩
    · rw [if_neg e]
  places := by
    intro v
    rw [← h.places, AMap.get_set]
    split
    · next e => subst e; simp [hr]
    · rfl
  nodup := h.nodup
  once := h.once
  acc := h.acc
  told := by
    intro v s hs
    rw [AMap.get_set] at hs
    split at hs
    · next e =>
      cases hs
      rw [hid, hk, hz, e]
      exact h.told _ _ hr
    · exact h.told _ _ hs
  uniq := h.uniq

/-- The callback of a request is invoked. -/
theorem call (h : Store n reqs table log live done) {u : Nat} {live' : List Nat} (o : Outcome)
    (hl : live.Perm (u :: live')) : Store n reqs table (log ++ [.completed u o]) live' (u :: done) where
  keys := h.keys
  tkeys := h.tkeys
  below := h.below
  range := h.range
  tab := h.tab
  places := by
    intro v
    rw [h.places, hl.mem_iff, List.mem_cons, List.mem_cons]
    constructor
    · rintro ((h | h) | h)
      · exact .inr (.inl h)
      · exact .inl h
      · exact .inr (.inr h)
    · rintro (h | h | h)
      · exact .inl (.inr h)
      · exact .inl (.inl h)
      · exact .inr h
  nodup := by
    refine List.Perm.nodup_iff ?_ |>.2 h.nodup
    refine List.Perm.trans ?_ (hl.append_right done).symm
    exact List.perm_middle
  once := by
    intro v
    have hnd : (u :: live').Nodup := hl.nodup_iff.1 (List.Nodup.sublist (List.sublist_append_left _ _) h.nodup)
    have hu := (List.nodup_cons.1 hnd).1
    have hb : u < n := h.live_below (hl.mem_iff.2 (List.mem_cons_self ..))
    rw [completions_append, h.once, completions_one]
    by_cases e : u = v
    · subst e
      simp [hl.mem_iff, hb, hu]
    · rw [if_neg e, Nat.add_zero]
      have : v ∉ live ↔ v ∉ live' := by
        rw [hl.mem_iff, List.mem_cons]
        constructor
        · intro h1 h2; exact h1 (.inr h2)
        · rintro h1 (h2 | h2)
          · exact e h2.symm
          · exact h1 h2
      simp only [this]
  acc := by
    intro v
    rw [wasAccepted_append, h.acc]
    constructor
    · rintro (h | ⟨i, k, s, h⟩)
      · exact h
      · simp at h
    · exact .inl
  told := fun u r hr => List.mem_append_left _ (h.told u r hr)
  uniq := fun u i k s i' k' s' h1 h2 => h.uniq u i k s i' k' s' (by simpa using h1) (by simpa using h2)

/-- A request whose callback has been invoked is removed. -/
theorem drop (h : Store n reqs table log live (u :: done)) {r : Request} (hr : reqs.get u = some r) :
    Store n (reqs.del u) (table.del r.id) log live done := by
  have hnd : (u :: (live ++ done)).Nodup := List.perm_middle.nodup_iff.1 h.nodup
  obtain ⟨hu, hnd⟩ := List.nodup_cons.1 hnd
  refine ⟨AMap.nodup_del h.keys _, AMap.nodup_del h.tkeys _, ?_, ?_, ?_, ?_, hnd, h.once, h.acc, ?_, h.uniq⟩
  · intro v s hs
    rw [AMap.get_del] at hs
    split at hs
    · cases hs
    · exact h.below _ _ hs
  · intro v s hs
    rw [AMap.get_del] at hs
    split at hs
    · cases hs
    · exact h.range _ _ hs
  · intro id v
    rw [AMap.get_del, AMap.get_del]
    by_cases e : id = r.id
    · subst e
      rw [if_pos rfl]
      constructor
      · intro h; cases h
      · rintro ⟨s, hs, e2⟩
        split at hs
        · cases hs
        · next hne =>
          have h1 := (h.tab r.id v).2 ⟨s, hs, e2⟩
          have h2 := (h.tab r.id u).2 ⟨r, hr, rfl⟩
          rw [h1] at h2
          exact absurd (Option.some.inj h2) hne
    · rw [if_neg e, h.tab]
      constructor
      · rintro ⟨s, hs, e2⟩
        refine ⟨s, ?_, e2⟩
        rw [if_neg]
        · exact hs
        · rintro rfl
          rw [hr] at hs
          cases hs
          exact e e2.symm
      · rintro ⟨s, hs, e2⟩
        split at hs
        · cases hs
        · exact ⟨s, hs, e2⟩
  · intro v
    rw [AMap.get_del]
    by_cases e : v = u
    · subst e
      simp only [if_true, Option.isSome_none, Bool.false_eq_true, false_iff]
      intro h; exact hu (List.mem_append.2 h)
    · rw [if_neg e, h.places, List.mem_cons]
      constructor
      · rintro (h | h | h)
        · exact .inl h
        · exact absurd h e
        · exact .inr h
      · rintro (h | h)
        · exact .inl h
        · exact .inr (.inr h)
  · intro v s hs
    rw [AMap.get_del] at hs
    split at hs
    · cases hs
    · exact h.told _ _ hs

/-- A request is completed and removed. -/
theorem complete (h : Store n reqs table log live done) {u : Nat} {r : Request} {live' : List Nat} (o : Outcome)
    (hr : reqs.get u = some r) (hl : live.Perm (u :: live')) :
    Store n (reqs.del u) (table.del r.id) (log ++ [.completed u o]) live' done :=
  (h.call o hl).drop hr

/-- A request is created. -/
theorem create (h : Store n reqs table log live done) {r : Request} (hid : 1 ≤ r.id ∧ r.id ≤ 65535)
    (hfree : table.get r.id = none) :
    Store (n + 1) (reqs.set n r) (table.set r.id n) (log ++ [.accepted n r.id r.kind r.size]) (n :: live) done := by
  have hn : reqs.get n = none := by
    cases hg : reqs.get n with
    | none => rfl
    | some s => exact absurd (h.below _ _ hg) (Nat.lt_irrefl _)
  have hnl : n ∉ live ∧ n ∉ done := by
    have := (h.places n).2
    rw [hn] at this
    exact ⟨fun h => by simpa using this (.inl h), fun h => by simpa using this (.inr h)⟩
  refine ⟨AMap.nodup_set h.keys _ _, AMap.nodup_set h.tkeys _ _, ?_, ?_, ?_, ?_, ?_, ?_, ?_, ?_, ?_⟩
  · intro v s hs
    rw [AMap.get_set] at hs
    split at hs
    · omega
    · have := h.below _ _ hs; omega
  · intro v s hs
    rw [AMap.get_set] at hs
    split at hs
    · cases hs; exact hid
    · exact h.range _ _ hs
  · intro id v
    rw [AMap.get_set, AMap.get_set]
    by_cases e : id = r.id
    · subst e
      rw [if_pos rfl]
      constructor
      · intro e; cases e; exact ⟨r, by simp, rfl⟩
      · rintro ⟨s, hs, e2⟩
        split at hs
        · next e3 => rw [e3]
        · have := (h.tab r.id v).2 ⟨s, hs, e2⟩
          rw [hfree] at this; cases this
    · rw [if_neg e, h.tab]
      constructor
      · rintro ⟨s, hs, e2⟩
        refine ⟨s, ?_, e2⟩
        rw [if_neg]
        · exact hs
        · rintro rfl
          rw [hn] at hs; cases hs
      · rintro ⟨s, hs, e2⟩
        split at hs
        · cases hs; exact absurd e2.symm e
        · exact ⟨s, hs, e2⟩
  · intro v
    rw [AMap.get_set]
    by_cases e : v = n
    · simp [e]
    · rw [if_neg e, h.places]; simp [e]
  · rw [List.cons_append, List.nodup_cons]
    exact ⟨fun h => (List.mem_append.1 h).elim hnl.1 hnl.2, h.nodup⟩
  · intro v
    have : completions [Trace.accepted n r.id r.kind r.size] v = 0 := by simp [completions, isCompletion]
    rw [completions_append, this, h.once, Nat.add_zero]
    by_cases e : v = n
    · subst e; simp [Nat.lt_irrefl]
    · have e1 : v < n + 1 ↔ v < n := by omega
      simp only [e1, List.mem_cons, e, false_or]
  · intro v
    rw [wasAccepted_append, h.acc]
    constructor
    · rintro (h | ⟨i, k', s', h⟩)
      · omega
      · simp at h; omega
    · intro hv
      by_cases e : v = n
      · exact .inr ⟨r.id, r.kind, r.size, by simp [e]⟩
      · exact .inl (by omega)
  · intro v s hs
    rw [AMap.get_set] at hs
    split at hs
    · next e => cases hs; rw [e]; simp
    · exact List.mem_append_left _ (h.told _ _ hs)
  · intro v i k s i' k' s' h1 h2
    have hno : ∀ i k s, Trace.accepted n i k s ∉ log := fun i k s hm =>
      absurd ((h.acc n).1 ⟨i, k, s, hm⟩) (Nat.lt_irrefl _)
    simp only [List.mem_append, List.mem_singleton, Trace.accepted.injEq] at h1 h2
    rcases h1 with h1 | ⟨e1, e2, e3, z1⟩
    · rcases h2 with h2 | ⟨e4, e5, e6, z2⟩
      · exact h.uniq v i k s i' k' s' h1 h2
      · subst e4; exact absurd h1 (hno _ _ _)
    · rcases h2 with h2 | ⟨e4, e5, e6, z2⟩
      · subst e1; exact absurd h2 (hno _ _ _)
      · exact ⟨e2.trans e5.symm, e3.trans e6.symm, z1.trans z2.symm⟩

end Store
end Mqtt.Client311
