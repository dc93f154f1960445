import Verif.SubscriptionSet
import Verif.Lemmas.Text
import Verif.Spec.Topic

/-! Invariant and effect of the operations of `SubscriptionSet.lean`. -/
namespace Mqtt.SubscriptionSet
open Mqtt

/-! ### Counting the filters through a node -/

/-- The subscriptions keyed by their levels. -/
def byLevels (m : AMap Bytes Entry) : AMap Path Entry := m.map fun e => (split 47 e.1, e.2)

theorem split_inj {f g : Bytes} (h : split 47 f = split 47 g) : f = g :=
  (split_levels f).2.2.trans (by rw [h]; exact (split_levels g).2.2.symm)

theorem byLevels_get (m : AMap Bytes Entry) (f : Bytes) : (byLevels m).get (split 47 f) = m.get f := by
  induction m with
  | nil => rfl
  | cons e m ih =>
    obtain ⟨g, v⟩ := e
    simp only [byLevels, List.map_cons, AMap.get_cons] at ih ⊢
    by_cases h : g = f
    · simp [h]
    · rw [if_neg h, if_neg (fun e => h (split_inj e)), ih]

theorem byLevels_key {m : AMap Bytes Entry} {p : Path} {e : Entry} (h : (byLevels m).get p = some e) :
    ∃ f, p = split 47 f ∧ m.get f = some e := by
  have := AMap.get_some_mem h
  simp only [byLevels, List.mem_map, Prod.mk.injEq] at this
  obtain ⟨⟨f, e'⟩, hm, rfl, rfl⟩ := this
  exact ⟨f, rfl, by rw [← byLevels_get]; exact h⟩

theorem byLevels_del (m : AMap Bytes Entry) (f : Bytes) : byLevels (m.del f) = (byLevels m).del (split 47 f) := by
  induction m with
  | nil => rfl
  | cons e m ih =>
    obtain ⟨g, v⟩ := e
    simp only [byLevels, AMap.del, List.map_cons] at ih ⊢
    by_cases h : g = f
    · subst h
      rw [List.filter_cons_of_neg (by simp), List.filter_cons_of_neg (by simp), ih]
    · rw [List.filter_cons_of_pos (by simpa using h),
        List.filter_cons_of_pos (by simpa using fun e => h (split_inj e)), List.map_cons, ih]

theorem byLevels_set (m : AMap Bytes Entry) (f : Bytes) (e : Entry) :
    byLevels (m.set f e) = (byLevels m).set (split 47 f) e := by
  unfold AMap.set
  rw [← byLevels_del]; rfl

theorem byLevels_nodup {m : AMap Bytes Entry} (h : m.Nodup) : (byLevels m).Nodup := by
  unfold AMap.Nodup AMap.keys byLevels at *
  rw [List.map_map]
  have : ((fun e => e.1) ∘ fun e : Bytes × Entry => (split 47 e.1, e.2)) = split 47 ∘ (·.1) := rfl
  rw [this, ← List.map_map]
  unfold List.Nodup at *
  rw [List.pairwise_map]
  exact h.imp fun hne e => hne (split_inj e)

/-- How many filters pass through the node `p`. -/
def cnt (M : AMap Path Entry) (p : Path) : Nat := M.countP fun e => p.isPrefixOf e.1

/-- The reference count a node should have: the root has one more. -/
def refs (M : AMap Path Entry) (p : Path) : Nat := cnt M p + if p = [] then 1 else 0

theorem cnt_mono (M : AMap Path Entry) {p q : Path} (h : p <+: q) : cnt M q ≤ cnt M p := by
  unfold cnt
  apply List.countP_mono_left
  intro e _ hq
  rw [List.isPrefixOf_iff_prefix] at hq ⊢
  exact h.trans hq

theorem cnt_del {M : AMap Path Entry} (hn : M.Nodup) {k : Path} {v : Entry} (h : M.get k = some v) (p : Path) :
    cnt M p = cnt (M.del k) p + if p <+: k then 1 else 0 := by
  unfold cnt
  rw [(AMap.perm_del hn h).countP_eq, List.countP_cons]
  by_cases hp : p <+: k
  · simp [List.isPrefixOf_iff_prefix, hp]
  · simp [List.isPrefixOf_iff_prefix, hp]

theorem cnt_set_new {M : AMap Path Entry} {k : Path} (v : Entry) (h : M.get k = none) (p : Path) :
    cnt (M.set k v) p = cnt M p + if p <+: k then 1 else 0 := by
  unfold cnt
  rw [(AMap.perm_set k v h).countP_eq, List.countP_cons]
  by_cases hp : p <+: k
  · simp [List.isPrefixOf_iff_prefix, hp]
  · simp [List.isPrefixOf_iff_prefix, hp]

theorem cnt_set_old {M : AMap Path Entry} (hn : M.Nodup) {k : Path} {v w : Entry} (h : M.get k = some w) (p : Path) :
    cnt (M.set k v) p = cnt M p := by
  rw [cnt_del hn h]
  have := cnt_set_new (M := M.del k) (k := k) v (AMap.get_del_same ..) p
  have e : (M.del k).set k v = M.set k v := by
    unfold AMap.set
    rw [AMap.del_of_get_none (AMap.get_del_same M k)]
  rw [e] at this
  exact this

theorem cnt_pos_of_get {M : AMap Path Entry} {k p : Path} {v : Entry} (h : M.get k = some v) (hp : p <+: k) :
    0 < cnt M p := by
  unfold cnt
  rw [List.countP_pos_iff]
  exact ⟨_, AMap.get_some_mem h, by simpa [List.isPrefixOf_iff_prefix] using hp⟩

/-- A filter through `p` but not through the longer `q` counts for `p` only. -/
theorem cnt_lt {M : AMap Path Entry} (hn : M.Nodup) {k p q : Path} {v : Entry} (h : M.get k = some v) (hp : p <+: k)
    (hpq : p <+: q) (hq : ¬ q <+: k) : cnt M q + 1 ≤ cnt M p := by
  rw [cnt_del hn h p, cnt_del hn h q, if_pos hp, if_neg hq]
  have := cnt_mono (M.del k) hpq
  omega

/-! ### The invariant -/

/-- The node `n` at `p` is what the subscriptions `M` require. -/
def NodeOk (M : AMap Path Entry) (p : Path) (n : Node) : Prop :=
  n.ref = refs M p ∧
  match M.get p with
  | none => n.isSub = false ∧ n.cleanup = false ∧ n.onPublish = none
  | some e => n.isSub = true ∧ n.cleanup = e.cleanup ∧ n.onPublish = e.onPublish ∧ n.userdata = e.userdata

structure Inv (nodes : AMap Path Node) (M : AMap Path Entry) : Prop where
  nodup : nodes.Nodup
  subs : M.Nodup
  nonroot : M.get [] = none
  absent : ∀ p, nodes.get p = none ↔ refs M p = 0
  present : ∀ p n, nodes.get p = some n → NodeOk M p n

theorem Inv.get_of_pos {nodes : AMap Path Node} {M : AMap Path Entry} (h : Inv nodes M) {p : Path} (hp : 0 < refs M p) :
    ∃ n, nodes.get p = some n := by
  cases hg : nodes.get p with
  | none => rw [(h.absent p).1 hg] at hp; omega
  | some n => exact ⟨n, rfl⟩

theorem refs_root (M : AMap Path Entry) : 0 < refs M [] := by unfold refs; simp

theorem refs_pos_of_prefix {M : AMap Path Entry} {p q : Path} (h : p <+: q) (hq : 0 < cnt M q) : 0 < refs M p := by
  have := cnt_mono M h
  unfold refs; omega

theorem inv_new : Inv SubSet.new.nodes [] where
  nodup := by simp [SubSet.new, AMap.Nodup, AMap.keys]
  subs := AMap.nodup_nil
  nonroot := rfl
  absent := by
    intro p
    simp only [SubSet.new, AMap.get_cons, refs, cnt, List.countP_nil, Nat.zero_add]
    by_cases hp : p = []
    · simp [hp]
    · rw [if_neg (fun e => hp e.symm), if_neg hp]; simp
  present := by
    intro p n hg
    have := AMap.get_some_mem hg
    simp only [SubSet.new, List.mem_singleton, Prod.mk.injEq] at this
    obtain ⟨rfl, rfl⟩ := this
    exact ⟨rfl, rfl, rfl, rfl⟩

theorem existing_spec {nodes : AMap Path Node} {M : AMap Path Entry} (h : Inv nodes M) (ls : List Bytes) : ∀ cur,
    (existing nodes cur ls = none ↔ M.get (cur ++ ls) = none) := by
  induction ls with
  | nil =>
    intro cur
    simp only [existing, List.append_nil]
    cases hg : nodes.get cur with
    | none =>
      simp only [true_iff]
      have h0 := (h.absent cur).1 hg
      cases hm : M.get cur with
      | none => rfl
      | some e =>
        have := cnt_pos_of_get hm List.prefix_rfl
        unfold refs at h0; omega
    | some n =>
      have := (h.present cur n hg).2
      cases hm : M.get cur with
      | none => rw [hm] at this; simp [this.1]
      | some e => rw [hm] at this; simp [this.1]
  | cons l ls ih =>
    intro cur
    simp only [existing]
    have e : cur ++ l :: ls = cur ++ [l] ++ ls := by simp
    rw [e]
    split
    · next hg =>
      simp only [true_iff]
      have h0 := (h.absent _).1 hg
      cases hm : M.get (cur ++ [l] ++ ls) with
      | none => rfl
      | some e =>
        have := cnt_pos_of_get hm (List.prefix_append (cur ++ [l]) ls)
        unfold refs at h0; omega
    · exact ih _

theorem reference_get (ls : List Bytes) : ∀ (nodes : AMap Path Node) (cur q : Path),
    (reference nodes cur ls).get q =
      if cur <+: q ∧ q ≠ cur ∧ q <+: cur ++ ls then some (bump (nodes.get q)) else nodes.get q := by
  induction ls with
  | nil =>
    intro nodes cur q
    rw [reference, if_neg]
    rintro ⟨h1, h2, h3⟩
    rw [List.append_nil] at h3
    exact h2 (h3.eq_of_length (Nat.le_antisymm h3.length_le h1.length_le))
  | cons l ls ih =>
    intro nodes cur q
    rw [reference, ih]
    have e : cur ++ l :: ls = cur ++ [l] ++ ls := by simp
    rw [e, AMap.get_set]
    by_cases hq : q = cur ++ [l]
    · subst hq
      rw [if_pos rfl, if_neg (by simp), if_pos]
      exact ⟨List.prefix_append .., by simp, List.prefix_append ..⟩
    · rw [if_neg hq]
      by_cases h1 : cur ++ [l] <+: q ∧ q ≠ cur ++ [l] ∧ q <+: cur ++ [l] ++ ls
      · rw [if_pos h1, if_pos]
        refine ⟨(List.prefix_append ..).trans h1.1, ?_, h1.2.2⟩
        rintro rfl
        have := h1.1.length_le
        simp only [List.length_append, List.length_singleton] at this
        omega
      · rw [if_neg h1, if_neg]
        rintro ⟨a, b, c⟩
        apply h1
        refine ⟨?_, hq, c⟩
        obtain ⟨t, rfl⟩ := a
        cases t with
        | nil => simp at b
        | cons x t =>
          rw [List.append_assoc, List.prefix_append_right_inj] at c
          have : x = l := by
            have := (List.cons_prefix_cons.1 c).1
            exact this
          subst this
          exact ⟨t, by simp⟩

theorem reference_nodup (ls : List Bytes) : ∀ (nodes : AMap Path Node) (cur : Path), nodes.Nodup →
    (reference nodes cur ls).Nodup := by
  induction ls with
  | nil => intro nodes cur h; exact h
  | cons l ls ih => intro nodes cur h; exact ih _ _ (AMap.nodup_set h _ _)

/-- The nodes after a path was referenced once more. -/
theorem referenced_get (nodes : AMap Path Node) (ls : List Bytes) (q : Path) :
    (reference (nodes.set [] (bump (nodes.get []))) [] ls).get q =
      if q <+: ls then some (bump (nodes.get q)) else nodes.get q := by
  rw [reference_get, AMap.get_set]
  by_cases h0 : q = []
  · subst h0; simp
  · rw [if_neg h0]
    by_cases h : q <+: ls <;> simp [h, h0]

/-! ### Cleanup accounting -/

/-- The calls the nodes would still make when destroyed. -/
def held (nodes : AMap Path Node) : List (Option Nat) := nodes.flatMap fun e => nodeCleanup e.2

theorem held_perm {a b : AMap Path Node} (h : a.Perm b) (u : Option Nat) : (held a).count u = (held b).count u :=
  (h.flatMap_right _).count_eq u

theorem held_cons (p : Path) (n : Node) (m : AMap Path Node) : held ((p, n) :: m) = nodeCleanup n ++ held m := rfl

theorem held_set_some {nodes : AMap Path Node} (hn : nodes.Nodup) {p : Path} {n m : Node} (hp : nodes.get p = some n)
    (u : Option Nat) :
    (held (nodes.set p m)).count u + (nodeCleanup n).count u = (held nodes).count u + (nodeCleanup m).count u := by
  rw [held_perm (AMap.perm_del hn hp), held_cons]
  unfold AMap.set
  rw [held_cons, List.count_append, List.count_append]
  omega

theorem held_set_none {nodes : AMap Path Node} {p : Path} {m : Node} (hp : nodes.get p = none)
    (u : Option Nat) : (held (nodes.set p m)).count u = (held nodes).count u + (nodeCleanup m).count u := by
  rw [held_perm (AMap.perm_set p m hp), held_cons, List.count_append]
  omega

theorem held_bump {nodes : AMap Path Node} (hn : nodes.Nodup) (p : Path) (u : Option Nat) :
    (held (nodes.set p (bump (nodes.get p)))).count u = (held nodes).count u := by
  cases hg : nodes.get p with
  | none => rw [held_set_none hg]; simp [bump, nodeCleanup, newNode]
  | some n =>
    have := held_set_some hn hg (m := bump (some n)) u
    have e : nodeCleanup (bump (some n)) = nodeCleanup n := rfl
    rw [e] at this
    omega

theorem held_reference (u : Option Nat) (ls : List Bytes) : ∀ (nodes : AMap Path Node) (cur : Path), nodes.Nodup →
    (held (reference nodes cur ls)).count u = (held nodes).count u := by
  induction ls with
  | nil => intro nodes cur _; rfl
  | cons l ls ih =>
    intro nodes cur h
    rw [reference, ih _ _ (AMap.nodup_set h _ _), held_bump h]

theorem held_partition (nodes : AMap Path Node) (f : Path × Node → Bool) (u : Option Nat) :
    (held nodes).count u = (held (nodes.filter f)).count u + (held (nodes.filter fun e => !f e)).count u := by
  rw [held_perm (List.filter_append_perm f nodes).symm]
  unfold held
  rw [List.flatMap_append, List.count_append]

theorem destroyTree_count (s : SubSet) (p : Path) (u : Option Nat) :
    (destroyTree s p).cleaned.count u + (held (destroyTree s p).nodes).count u =
      s.cleaned.count u + (held s.nodes).count u := by
  rw [held_partition s.nodes (fun e => p.isPrefixOf e.1) u]
  unfold destroyTree
  simp only [List.count_append]
  have : (fun e : Path × Node => decide (¬ p.isPrefixOf e.1 = true)) = fun e => !p.isPrefixOf e.1 := by
    funext e; cases p.isPrefixOf e.1 <;> rfl
  rw [this]
  unfold held
  omega

theorem destroyTree_get (s : SubSet) (p q : Path) :
    (destroyTree s p).nodes.get q = if p <+: q then none else s.nodes.get q := by
  unfold destroyTree
  simp only
  induction s.nodes with
  | nil => simp
  | cons e m ih =>
    obtain ⟨k, n⟩ := e
    rw [List.filter_cons, AMap.get_cons]
    by_cases hk : p <+: k
    · rw [if_neg (by simpa [List.isPrefixOf_iff_prefix] using hk), ih]
      by_cases hq : p <+: q
      · rw [if_pos hq, if_pos hq]
      · rw [if_neg hq, if_neg hq, if_neg]
        rintro rfl; exact hq hk
    · rw [if_pos (by simpa [List.isPrefixOf_iff_prefix] using hk), AMap.get_cons, ih]
      by_cases hkq : k = q
      · subst hkq; rw [if_pos rfl, if_pos rfl, if_neg hk]
      · rw [if_neg hkq, if_neg hkq]

theorem destroyTree_nodup {s : SubSet} (h : s.nodes.Nodup) (p : Path) : (destroyTree s p).nodes.Nodup :=
  List.Nodup.sublist (List.Sublist.map _ List.filter_sublist) h

/-! ### Adding -/

/-- The calls made on replacing or removing: with user data, what destruction would do. -/
theorem cleanup_count (n : Node) (c : List (Option Nat)) (u : Nat) :
    (if n.cleanup then c ++ [n.userdata] else c).count (some u) = c.count (some u) + (nodeCleanup n).count (some u) := by
  unfold nodeCleanup
  obtain ⟨ref, s, o, cl, ud⟩ := n
  cases cl <;> cases ud <;> simp

/-- The user data an entry hands to its cleanup function. -/
def Entry.disposal (e : Entry) : List (Option Nat) := if e.cleanup ∧ e.userdata ≠ none then [e.userdata] else []

theorem add_spec {s : SubSet} (h : Inv s.nodes (byLevels s.subscriptions)) (f : Bytes)
    (e : Entry) (hf : isValidTopicFilter f = true) :
    ∃ s', add s f e = some s' ∧ s'.subscriptions = s.subscriptions.set f e ∧
      Inv s'.nodes (byLevels s'.subscriptions) ∧
      ∀ u, s'.cleaned.count (some u) + (held s'.nodes).count (some u) =
        s.cleaned.count (some u) + (held s.nodes).count (some u) + e.disposal.count (some u) := by
  have hsubs : (s.subscriptions.del f).set f e = s.subscriptions.set f e := by
    unfold AMap.set
    rw [AMap.del_of_get_none (AMap.get_del_same s.subscriptions f)]
  unfold add
  rw [if_neg (by simp [hf]), hsubs]
  simp only
  generalize hM : byLevels s.subscriptions = M at *
  have hM' : byLevels (s.subscriptions.set f e) = M.set (split 47 f) e := by rw [byLevels_set, hM]
  have hne : split 47 f ≠ [] := split_ne_nil _ _
  generalize hL : split 47 f = L at *
  -- the nodes after referencing
  by_cases hex : existing s.nodes [] L = none
  · rw [if_pos hex]
    have hMg : M.get L = none := by simpa using (existing_spec h L []).1 hex
    have hget := referenced_get s.nodes L
    have hnd := reference_nodup L _ [] (AMap.nodup_set h.nodup [] (bump (s.nodes.get [])))
    have hheld := fun u => (held_reference u L _ [] (AMap.nodup_set h.nodup [] (bump (s.nodes.get [])))).trans
      (held_bump h.nodup [] u)
    generalize reference (s.nodes.set [] (bump (s.nodes.get []))) [] L = R at *
    have hRL : R.get L = some (bump (s.nodes.get L)) := by rw [hget, if_pos List.prefix_rfl]
    rw [hRL]
    refine ⟨_, rfl, rfl, ?_, ?_⟩
    · simp only [hM']
      refine ⟨AMap.nodup_set hnd _ _, AMap.nodup_set h.subs _ _, ?_, ?_, ?_⟩
      · rw [AMap.get_set, if_neg (fun e => hne e.symm)]; exact h.nonroot
      · intro p
        rw [AMap.get_set, hget]
        unfold refs
        rw [cnt_set_new e hMg]
        by_cases hp : p = L
        · subst hp; simp
        · rw [if_neg hp]
          by_cases hpl : p <+: L
          · simp [hpl]
          · rw [if_neg hpl, if_neg hpl, h.absent]; unfold refs; simp
      · intro p n hg
        rw [AMap.get_set, hget] at hg
        unfold NodeOk refs
        rw [cnt_set_new e hMg, AMap.get_set]
        by_cases hp : p = L
        · subst hp
          rw [if_pos rfl, Option.some.injEq] at hg
          rw [if_pos List.prefix_rfl, if_pos rfl, ← hg]
          refine ⟨?_, rfl, rfl, rfl, rfl⟩
          rw [if_neg hne]
          cases hgp : s.nodes.get p with
          | none => have := (h.absent p).1 hgp; unfold refs at this; simp only [bump, newNode]; omega
          | some n0 => have := (h.present p n0 hgp).1; simp only [bump]; unfold refs at this; rw [if_neg hne] at this; omega
        · rw [if_neg hp] at hg ⊢
          by_cases hpl : p <+: L
          · rw [if_pos hpl, Option.some.injEq] at hg
            rw [if_pos hpl, ← hg]
            cases hgp : s.nodes.get p with
            | none =>
              have h0 := (h.absent p).1 hgp
              have hmp : M.get p = none := by
                cases hm : M.get p with
                | none => rfl
                | some v => have := cnt_pos_of_get hm List.prefix_rfl; unfold refs at h0; omega
              rw [hmp]
              unfold refs at h0
              exact ⟨by simp only [bump, newNode]; omega, rfl, rfl, rfl⟩
            | some n0 =>
              obtain ⟨a, b⟩ := h.present p n0 hgp
              unfold refs at a
              exact ⟨by simp only [bump]; omega, b⟩
          · rw [if_neg hpl] at hg
            rw [if_neg hpl]
            obtain ⟨a, b⟩ := h.present p n hg
            unfold refs at a
            exact ⟨by omega, b⟩
    · intro u
      generalize bump (s.nodes.get L) = b at hRL ⊢
      have h1 := held_set_some hnd hRL (m := { b with
        isSub := true, onPublish := e.onPublish, cleanup := e.cleanup, userdata := e.userdata }) (some u)
      have h2 := cleanup_count b s.cleaned u
      rw [h2]
      have h3 : nodeCleanup { b with
        isSub := true, onPublish := e.onPublish, cleanup := e.cleanup, userdata := e.userdata } = e.disposal := rfl
      rw [h3] at h1
      have h4 := hheld (some u)
      simp only
      omega
  · rw [if_neg hex]
    have hMg : M.get L ≠ none := by
      intro hm; exact hex ((existing_spec h L []).2 (by simpa using hm))
    obtain ⟨w, hw⟩ := Option.ne_none_iff_exists'.1 hMg
    obtain ⟨n, hgn⟩ := h.get_of_pos (p := L) (by
      have := cnt_pos_of_get hw List.prefix_rfl; unfold refs; omega)
    rw [hgn]
    refine ⟨_, rfl, rfl, ?_, ?_⟩
    · simp only [hM']
      refine ⟨AMap.nodup_set h.nodup _ _, AMap.nodup_set h.subs _ _, ?_, ?_, ?_⟩
      · rw [AMap.get_set, if_neg (fun e => hne e.symm)]; exact h.nonroot
      · intro p
        unfold refs
        rw [AMap.get_set, cnt_set_old h.subs hw]
        by_cases hp : p = L
        · subst hp
          have := cnt_pos_of_get hw List.prefix_rfl
          rw [if_pos rfl]
          simp only [reduceCtorEq, false_iff]; omega
        · rw [if_neg hp]; exact h.absent p
      · intro p m hg
        rw [AMap.get_set] at hg
        unfold NodeOk refs
        rw [AMap.get_set, cnt_set_old h.subs hw]
        by_cases hp : p = L
        · subst hp
          rw [if_pos rfl, Option.some.injEq] at hg
          rw [if_pos rfl, ← hg]
          exact ⟨(h.present p n hgn).1, rfl, rfl, rfl, rfl⟩
        · rw [if_neg hp] at hg ⊢
          exact h.present p m hg
    · intro u
      have h1 := held_set_some h.nodup hgn (m := { n with
        isSub := true, onPublish := e.onPublish, cleanup := e.cleanup, userdata := e.userdata }) (some u)
      have h2 := cleanup_count n s.cleaned u
      rw [h2]
      have h3 : nodeCleanup { n with
        isSub := true, onPublish := e.onPublish, cleanup := e.cleanup, userdata := e.userdata } = e.disposal := rfl
      rw [h3] at h1
      simp only
      omega

/-! ### Removing -/

/-- A node with one reference less, and no subscription if it is the last one. -/
def drop (leaf : Bool) (n : Node) : Node :=
  if leaf then { n with ref := n.ref - 1, cleanup := false, onPublish := none, isSub := false }
  else { n with ref := n.ref - 1 }

/-- Effect of the removal loop below `cur`, in terms of a count function. -/
theorem unreference_spec (L : Path) (c : Path → Nat) (ls : List Bytes) : ∀ (s : SubSet) (cur : Path),
    cur ++ ls = L → s.nodes.Nodup →
    (∀ q, q <+: L → cur <+: q → ∃ n, s.nodes.get q = some n ∧ n.ref = c q ∧ 0 < c q) →
    (∀ p q, p <+: L → cur <+: p → p <+: q → ¬ q <+: L → c p = 1 → s.nodes.get q = none) →
    (∀ p q, p <+: L → q <+: L → p <+: q → c q ≤ c p) →
    ∃ s', unreference s cur ls = some s' ∧ s'.subscriptions = s.subscriptions ∧ s'.nodes.Nodup ∧
      (∀ q, s'.nodes.get q = if cur <+: q ∧ q <+: L then
        (if c q = 1 then none else (s.nodes.get q).map (drop (q = L))) else s.nodes.get q) ∧
      ∀ u, s'.cleaned.count (some u) + (held s'.nodes).count (some u) =
        s.cleaned.count (some u) + (held s.nodes).count (some u) := by
  -- destroying at a node with one reference left
  have hdestroy : ∀ (s : SubSet) (cur : Path), cur <+: L → s.nodes.Nodup → c cur = 1 →
      (∀ q, q <+: L → cur <+: q → ∃ n, s.nodes.get q = some n ∧ n.ref = c q ∧ 0 < c q) →
      (∀ p q, p <+: L → cur <+: p → p <+: q → ¬ q <+: L → c p = 1 → s.nodes.get q = none) →
      (∀ p q, p <+: L → q <+: L → p <+: q → c q ≤ c p) →
      (destroyTree s cur).subscriptions = s.subscriptions ∧ (destroyTree s cur).nodes.Nodup ∧
      (∀ q, (destroyTree s cur).nodes.get q = if cur <+: q ∧ q <+: L then
        (if c q = 1 then none else (s.nodes.get q).map (drop (q = L))) else s.nodes.get q) ∧
      ∀ u, (destroyTree s cur).cleaned.count (some u) + (held (destroyTree s cur).nodes).count (some u) =
        s.cleaned.count (some u) + (held s.nodes).count (some u) := by
    intro s cur hcur hnd hc h1 h2 h3
    refine ⟨rfl, destroyTree_nodup hnd _, ?_, fun u => destroyTree_count s cur (some u)⟩
    intro q
    rw [destroyTree_get]
    by_cases hq : cur <+: q
    · rw [if_pos hq]
      by_cases hqL : q <+: L
      · rw [if_pos ⟨hq, hqL⟩, if_pos]
        obtain ⟨n, _, _, hpos⟩ := h1 q hqL hq
        have := h3 cur q hcur hqL hq
        omega
      · rw [if_neg (fun e => hqL e.2), h2 cur q hcur List.prefix_rfl hq hqL hc]
    · rw [if_neg hq, if_neg (fun e => hq e.1)]
  induction ls with
  | nil =>
    intro s cur hL hnd h1 h2 h3
    rw [List.append_nil] at hL
    subst hL
    obtain ⟨n, hg, hr, hpos⟩ := h1 cur List.prefix_rfl List.prefix_rfl
    unfold unreference
    rw [hg]
    simp only
    by_cases hc : c cur = 1
    · rw [if_pos (by omega)]
      exact ⟨_, rfl, hdestroy s cur List.prefix_rfl hnd hc h1 h2 h3⟩
    · rw [if_neg (by omega)]
      refine ⟨_, rfl, rfl, AMap.nodup_set hnd _ _, ?_, ?_⟩
      · intro q
        simp only [AMap.get_set]
        by_cases hq : q = cur
        · subst hq
          rw [if_pos rfl, if_pos ⟨List.prefix_rfl, List.prefix_rfl⟩, if_neg hc, hg]
          simp [drop]
        · rw [if_neg hq, if_neg]
          rintro ⟨a, b⟩
          exact hq (b.eq_of_length (Nat.le_antisymm b.length_le a.length_le))
      · intro u
        have e1 := held_set_some hnd hg (m := { n with ref := n.ref - 1, cleanup := false, onPublish := none, isSub := false })
          (some u)
        have e2 := cleanup_count n s.cleaned u
        simp only
        rw [e2]
        have e3 : nodeCleanup { n with ref := n.ref - 1, cleanup := false, onPublish := none, isSub := false } = [] := by
          simp [nodeCleanup]
        rw [e3] at e1
        simp only [List.count_nil, Nat.add_zero] at e1
        omega
  | cons l ls ih =>
    intro s cur hL hnd h1 h2 h3
    have hcur : cur <+: L := ⟨_, hL⟩
    have hcur' : cur ++ [l] <+: L := ⟨ls, by simpa using hL⟩
    have hneL : cur ≠ L := by
      rintro rfl; simp at hL
    obtain ⟨n, hg, hr, hpos⟩ := h1 cur hcur List.prefix_rfl
    obtain ⟨n', hg', _, _⟩ := h1 (cur ++ [l]) hcur' (List.prefix_append ..)
    unfold unreference
    rw [hg]
    simp only
    by_cases hc : c cur = 1
    · rw [if_pos (by omega)]
      exact ⟨_, rfl, hdestroy s cur hcur hnd hc h1 h2 h3⟩
    · rw [if_neg (by omega), if_neg (by rw [hg']; simp)]
      have hne : ∀ q, cur ++ [l] <+: q → q ≠ cur := by
        rintro q hq rfl
        have := hq.length_le
        simp only [List.length_append, List.length_singleton] at this
        omega
      obtain ⟨s', e1, e2, e3, e4, e5⟩ := ih { s with nodes := s.nodes.set cur { n with ref := n.ref - 1 } } (cur ++ [l])
        (by simpa using hL) (AMap.nodup_set hnd _ _)
        (by
          intro q hq hcq
          simp only
          rw [AMap.get_set, if_neg (hne q hcq)]
          exact h1 q hq ((List.prefix_append ..).trans hcq))
        (by
          intro p q hp hcp hpq hq hcp1
          simp only
          rw [AMap.get_set, if_neg]
          · exact h2 p q hp ((List.prefix_append ..).trans hcp) hpq hq hcp1
          · rintro rfl; exact hq hcur)
        h3
      refine ⟨s', e1, e2, e3, ?_, ?_⟩
      · intro q
        rw [e4]
        simp only [AMap.get_set]
        by_cases hq : q = cur
        · subst hq
          rw [if_neg (fun e => hne q e.1 rfl), if_pos rfl, if_pos ⟨List.prefix_rfl, hcur⟩, if_neg hc, hg]
          simp [drop, hneL]
        · rw [if_neg hq]
          by_cases hin : cur ++ [l] <+: q ∧ q <+: L
          · have hin2 : cur <+: q ∧ q <+: L := ⟨(List.prefix_append ..).trans hin.1, hin.2⟩
            rw [if_pos hin, if_pos hin2]
          · rw [if_neg hin]
            suffices hnot : ¬ (cur <+: q ∧ q <+: L) by rw [if_neg hnot]
            rintro ⟨a, b⟩
            apply hin
            refine ⟨?_, b⟩
            obtain ⟨t, rfl⟩ := a
            cases t with
            | nil => simp at hq
            | cons x t =>
              rw [← hL, List.prefix_append_right_inj] at b
              have : x = l := (List.cons_prefix_cons.1 b).1
              subst this
              exact ⟨t, by simp⟩
      · intro u
        rw [e5]
        simp only
        have := held_set_some hnd hg (m := { n with ref := n.ref - 1 }) (some u)
        have e : nodeCleanup { n with ref := n.ref - 1 } = nodeCleanup n := rfl
        rw [e] at this
        omega

theorem remove_spec {s : SubSet} (h : Inv s.nodes (byLevels s.subscriptions)) (f : Bytes) :
    ∃ s', remove s f = some s' ∧ s'.subscriptions = s.subscriptions.del f ∧
      Inv s'.nodes (byLevels s'.subscriptions) ∧
      ∀ u, s'.cleaned.count (some u) + (held s'.nodes).count (some u) =
        s.cleaned.count (some u) + (held s.nodes).count (some u) := by
  unfold remove isInTopicTree
  simp only
  have hM' : byLevels (s.subscriptions.del f) = (byLevels s.subscriptions).del (split 47 f) := byLevels_del _ _
  generalize hM : byLevels s.subscriptions = M at *
  have hne : split 47 f ≠ [] := split_ne_nil _ _
  generalize hL : split 47 f = L at *
  by_cases hex : existing s.nodes [] L = none
  · rw [if_pos (by rw [hex]; rfl)]
    have hMg : M.get L = none := by simpa using (existing_spec h L []).1 hex
    refine ⟨_, rfl, rfl, ?_, fun u => rfl⟩
    simp only
    rw [hM', AMap.del_of_get_none hMg]
    exact h
  · rw [if_neg (by cases hh : existing s.nodes [] L with | none => exact absurd hh hex | some x => simp)]
    have hMg : M.get L ≠ none := by
      intro hm; exact hex ((existing_spec h L []).2 (by simpa using hm))
    obtain ⟨w, hw⟩ := Option.ne_none_iff_exists'.1 hMg
    have hpos : ∀ q, q <+: L → 0 < refs M q := fun q hq => by
      have := cnt_pos_of_get hw hq; unfold refs; omega
    obtain ⟨s', e1, e2, e3, e4, e5⟩ := unreference_spec L (refs M) L { s with subscriptions := s.subscriptions.del f } []
      rfl h.nodup
      (by
        intro q hq _
        obtain ⟨n, hg⟩ := h.get_of_pos (hpos q hq)
        exact ⟨n, hg, (h.present q n hg).1, hpos q hq⟩)
      (by
        intro p q hp _ hpq hq hc
        rw [h.absent]
        have h1 := cnt_lt h.subs hw hp hpq hq
        have : q ≠ [] := by rintro rfl; exact hq (List.nil_prefix)
        unfold refs at hc ⊢
        rw [if_neg this]
        omega)
      (by
        intro p q hp hq hpq
        have := cnt_mono M hpq
        unfold refs
        by_cases hq0 : q = []
        · subst hq0; rw [List.prefix_nil.1 hpq]; omega
        · rw [if_neg hq0]; omega)
    refine ⟨s', e1, e2, ?_, e5⟩
    rw [e2]
    simp only
    rw [hM']
    have hdel : ∀ p, refs M p = refs (M.del L) p + if p <+: L then 1 else 0 := by
      intro p; unfold refs; rw [cnt_del h.subs hw p]; omega
    refine ⟨e3, AMap.nodup_del h.subs _, ?_, ?_, ?_⟩
    · rw [AMap.get_del, h.nonroot]; split <;> rfl
    · intro p
      rw [e4]
      by_cases hp : p <+: L
      · rw [if_pos ⟨List.nil_prefix, hp⟩]
        have := hdel p
        rw [if_pos hp] at this
        by_cases hc : refs M p = 1
        · rw [if_pos hc]; simp only [true_iff]; omega
        · rw [if_neg hc]
          obtain ⟨n, hg⟩ := h.get_of_pos (hpos p hp)
          rw [hg]
          simp only [Option.map_some, reduceCtorEq, false_iff]
          have := hpos p hp
          omega
      · rw [if_neg (fun e => hp e.2)]
        have := hdel p
        rw [if_neg hp] at this
        simp only
        rw [h.absent, this]; simp
    · intro p n hg
      rw [e4] at hg
      have hd := hdel p
      unfold NodeOk
      rw [AMap.get_del]
      by_cases hp : p <+: L
      · rw [if_pos ⟨List.nil_prefix, hp⟩] at hg
        rw [if_pos hp] at hd
        by_cases hc : refs M p = 1
        · rw [if_pos hc] at hg; cases hg
        · rw [if_neg hc] at hg
          simp only [Option.map_eq_some_iff] at hg
          obtain ⟨n0, hg0, rfl⟩ := hg
          obtain ⟨a, b⟩ := h.present p n0 hg0
          by_cases hpL : p = L
          · subst hpL
            rw [if_pos rfl]
            refine ⟨by simp only [drop, decide_true, if_true]; omega, ?_⟩
            simp [drop]
          · rw [if_neg hpL]
            have : drop (decide (p = L)) n0 = { n0 with ref := n0.ref - 1 } := by simp [drop, hpL]
            rw [this]
            exact ⟨by simp only; omega, b⟩
      · rw [if_neg (fun e => hp e.2)] at hg
        rw [if_neg hp] at hd
        obtain ⟨a, b⟩ := h.present p n hg
        rw [if_neg (by rintro rfl; exact hp List.prefix_rfl)]
        exact ⟨by omega, b⟩

/-! ### Publish -/

/-- What the depth first search does from one node. -/
def visit (nodes : AMap Path Node) (p : Path) : List Bytes → List (Path × Nat × Option Nat)
  | [] => invoke nodes (p ++ [[35]]) ++ invoke nodes p
  | l :: ls =>
    invoke nodes (p ++ [[35]]) ++
      ((if nodes.get (p ++ [l]) = none then [] else visit nodes (p ++ [l]) ls) ++
       (if nodes.get (p ++ [[43]]) = none then [] else visit nodes (p ++ [[43]]) ls))

theorem publishLoop_visit (nodes : AMap Path Node) (ls : List Bytes) : ∀ (p : Path) (stack : List (Path × List Bytes)),
    publishLoop nodes ((p, ls) :: stack) = visit nodes p ls ++ publishLoop nodes stack := by
  induction ls with
  | nil => intro p stack; rw [publishLoop, visit, List.append_assoc]
  | cons l ls ih =>
    intro p stack
    rw [publishLoop, visit]
    have hpush : ∀ q stack, publishLoop nodes (push nodes q ls ++ stack) =
        (if nodes.get q = none then [] else visit nodes q ls) ++ publishLoop nodes stack := by
      intro q stack
      unfold push
      split
      · simp
      · rw [List.singleton_append, ih]
    rw [hpush, hpush]
    simp

/-- No wildcard levels. -/
def NoWild (ts : List Bytes) : Prop := ∀ t ∈ ts, t ≠ [43] ∧ t ≠ [35]

theorem invoke_key {nodes : AMap Path Node} {p : Path} {e : Path × Nat × Option Nat} (h : e ∈ invoke nodes p) : e.1 = p := by
  unfold invoke at h
  split at h
  · cases h
  · split at h
    · cases h
    · split at h
      · rw [List.mem_singleton] at h; rw [h]
      · cases h

theorem visit_prefix {nodes : AMap Path Node} (ts : List Bytes) : ∀ (p : Path) (e : Path × Nat × Option Nat),
    e ∈ visit nodes p ts → p <+: e.1 := by
  induction ts with
  | nil =>
    intro p e h
    rw [visit, List.mem_append] at h
    rcases h with h | h
    · rw [invoke_key h]; exact List.prefix_append ..
    · rw [invoke_key h]; exact List.prefix_rfl
  | cons t ts ih =>
    intro p e h
    rw [visit, List.mem_append, List.mem_append] at h
    rcases h with h | h | h
    · rw [invoke_key h]; exact List.prefix_append ..
    · split at h
      · cases h
      · exact (List.prefix_append ..).trans (ih _ _ h)
    · split at h
      · cases h
      · exact (List.prefix_append ..).trans (ih _ _ h)

theorem filter_invoke (nodes : AMap Path Node) (p q : Path) :
    (invoke nodes p).filter (fun e => e.1 = q) = if p = q then invoke nodes q else [] := by
  split
  · next h => subst h; rw [List.filter_eq_self]; intro e he; simpa using invoke_key he
  · next h => rw [List.filter_eq_nil_iff]; intro e he; rw [invoke_key he]; simpa using h

theorem filter_visit_off {nodes : AMap Path Node} (ts : List Bytes) (p q : Path) (h : ¬ p <+: q) :
    (visit nodes p ts).filter (fun e => e.1 = q) = [] := by
  rw [List.filter_eq_nil_iff]
  intro e he
  simp only [decide_eq_true_eq]
  rintro rfl
  exact h (visit_prefix ts p e he)

theorem invoke_below {nodes : AMap Path Node} {M : AMap Path Entry} (h : Inv nodes M) {p q : Path}
    (hp : nodes.get p = none) (hq : p <+: q) : invoke nodes q = [] := by
  have h0 := (h.absent p).1 hp
  have : nodes.get q = none := by
    rw [h.absent]
    have hm := cnt_mono M hq
    unfold refs at h0 ⊢
    have : q ≠ [] := by
      rintro rfl
      rw [List.prefix_nil.1 hq] at h0
      simp at h0
    rw [if_neg this]; omega
  unfold invoke
  rw [this]

/-- The calls made for the filter `cur ++ g`. -/
theorem visit_spec {nodes : AMap Path Node} {M : AMap Path Entry} (h : Inv nodes M) (ts : List Bytes) :
    ∀ (cur g : Path), NoWild ts →
    (visit nodes cur ts).filter (fun e => e.1 = cur ++ g) =
      open Classical in if Spec.Matches g ts then invoke nodes (cur ++ g) else [] := by
  induction ts with
  | nil =>
    intro cur g _
    rw [visit, List.filter_append, filter_invoke, filter_invoke]
    match g with
    | [] => rw [if_neg (by simp), if_pos (by simp), if_pos (by simp [Spec.Matches])]; simp
    | x :: [] =>
      by_cases hx : x = [35]
      · subst hx; rw [if_pos rfl, if_neg (by simp), if_pos (by simp [Spec.Matches])]; simp
      · rw [if_neg (by simpa using fun e => hx e.symm), if_neg (by simp), if_neg]
        · rfl
        · rw [Spec.Matches]
          · exact id
          · simpa using hx
          · simp
          · simp
    | x :: y :: g => rw [if_neg (by simp), if_neg (by simp), if_neg (by simp [Spec.Matches])]; rfl
  | cons t ts ih =>
    intro cur g hw
    have hwt := hw t (by simp)
    have hws : NoWild ts := fun x hx => hw x (by simp [hx])
    rw [visit, List.filter_append, List.filter_append, filter_invoke]
    have hchild : ∀ x g', (if nodes.get (cur ++ [x]) = none then [] else visit nodes (cur ++ [x]) ts).filter
        (fun e => e.1 = cur ++ x :: g') = open Classical in if Spec.Matches g' ts then invoke nodes (cur ++ x :: g') else [] := by
      intro x g'
      have e : cur ++ x :: g' = cur ++ [x] ++ g' := by simp
      rw [e]
      split
      · next hn =>
        rw [invoke_below h hn (List.prefix_append ..)]
        split <;> rfl
      · exact ih _ g' hws
    have hoff : ∀ x g', (∀ y g'', g' = y :: g'' → y ≠ x) →
        (if nodes.get (cur ++ [x]) = none then [] else visit nodes (cur ++ [x]) ts).filter (fun e => e.1 = cur ++ g') = [] := by
      intro x g' hx
      split
      · rfl
      · apply filter_visit_off
        rw [List.prefix_append_right_inj]
        intro hp
        obtain ⟨r, hr⟩ := hp
        exact hx x r (by rw [← hr]; rfl) rfl
    match g with
    | [] =>
      rw [if_neg (by simp), hoff _ [] (by simp), hoff _ [] (by simp), if_neg (by simp [Spec.Matches])]
      rfl
    | x :: g =>
      by_cases hx : x = [35] ∧ g = []
      · obtain ⟨rfl, rfl⟩ := hx
        rw [if_pos rfl, hoff t _ (by simpa using fun e => hwt.2 e.symm), hoff [43] _ (by simp), if_pos (by simp [Spec.Matches])]
        simp
      · have hm : Spec.Matches (x :: g) (t :: ts) ↔ (x = [43] ∨ x = t) ∧ Spec.Matches g ts := by
          rw [Spec.Matches]
          intro e h2; exact hx ⟨e, h2⟩
        rw [if_neg (by
          intro e
          rw [List.append_cancel_left_eq] at e
          simp only [List.cons.injEq] at e
          exact hx ⟨e.1.symm, e.2.symm⟩)]
        by_cases hxt : x = t
        · subst hxt
          rw [hchild, hoff [43] _ (by simpa using hwt.1)]
          by_cases hmg : Spec.Matches g ts
          · rw [if_pos hmg, if_pos (hm.2 ⟨Or.inr rfl, hmg⟩)]; simp
          · rw [if_neg hmg, if_neg (fun e => hmg (hm.1 e).2)]; simp
        · by_cases hx43 : x = [43]
          · subst hx43
            rw [hchild, hoff t _ (by simpa using hxt)]
            by_cases hmg : Spec.Matches g ts
            · rw [if_pos hmg, if_pos (hm.2 ⟨Or.inl rfl, hmg⟩)]; simp
            · rw [if_neg hmg, if_neg (fun e => hmg (hm.1 e).2)]; simp
          · rw [hoff t _ (by simpa using hxt), hoff [43] _ (by simpa using hx43)]
            simp [hm, hxt, hx43]

end Mqtt.SubscriptionSet
