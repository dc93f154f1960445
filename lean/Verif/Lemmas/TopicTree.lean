import Mathlib.Data.List.Induction
import Verif.TopicTree
import Verif.Lemmas.Text

namespace Mqtt.TopicTree
open Mqtt

/-- Subscription held at a path. -/
def subAt (nodes : AMap Path Node) (p : Path) : Option Sub := (nodes.get p).bind (·.sub)

theorem hasChild_iff {nodes : AMap Path Node} {p : Path} :
    hasChild nodes p = true ↔ ∃ l, nodes.get (p ++ [l]) ≠ none := by
  unfold hasChild
  rw [List.any_eq_true]
  constructor
  · rintro ⟨e, he, h⟩
    simp only [ne_eq, decide_not, Bool.and_eq_true, Bool.not_eq_eq_eq_not, Bool.not_true,
      decide_eq_false_iff_not, decide_eq_true_eq] at h
    obtain ⟨h1, rfl⟩ := h
    refine ⟨e.1.getLast h1, ?_⟩
    rw [List.dropLast_concat_getLast, AMap.get_ne_none_iff]
    exact List.mem_map.2 ⟨e, he, rfl⟩
  · rintro ⟨l, h⟩
    rw [AMap.get_ne_none_iff] at h
    obtain ⟨e, he, h2⟩ := List.mem_map.1 h
    refine ⟨e, he, ?_⟩
    rw [h2]; simp

theorem hasChild_false_iff {nodes : AMap Path Node} {p : Path} :
    hasChild nodes p = false ↔ ∀ l, nodes.get (p ++ [l]) = none := by
  rw [← Bool.not_eq_true, hasChild_iff]
  simp

/-! ### Insert loop -/

/-- Node the insert loop makes at `q`, if `q` is on its way. -/
def newNode (str : Nat) (cur : Path) (off : Nat) : List Bytes → Path → Option Node
  | [], _ => none
  | l :: ls, q =>
    if q = cur ++ [l] then some { sub := none, topicStr := str, topicOff := off, filterStr := str, owns := false }
    else newNode str (cur ++ [l]) (off + l.length + 1) ls q

theorem insertLoop_get (str : Nat) (ls : List Bytes) : ∀ (nodes : AMap Path Node) (cur : Path) (off lo : Nat)
    (c : Option (Path × Path)) (q : Path),
    (insertLoop str nodes cur off lo c ls).1.get q = (nodes.get q).or (newNode str cur off ls q) := by
  induction ls with
  | nil => intro nodes cur off lo c q; simp [insertLoop, newNode]
  | cons l ls ih =>
    intro nodes cur off lo c q
    rw [insertLoop, newNode]
    cases hg : nodes.get (cur ++ [l]) with
    | none =>
      simp only [ih, AMap.get_set]
      by_cases hq : q = cur ++ [l]
      · subst hq; simp [hg]
      · simp [hq]
    | some n =>
      simp only [ih]
      by_cases hq : q = cur ++ [l]
      · subst hq; simp [hg]
      · simp [hq]

theorem insertLoop_nodup (str : Nat) (ls : List Bytes) : ∀ (nodes : AMap Path Node) (cur : Path) (off lo : Nat)
    (c : Option (Path × Path)), nodes.Nodup → (insertLoop str nodes cur off lo c ls).1.Nodup := by
  induction ls with
  | nil => intro nodes cur off lo c h; exact h
  | cons l ls ih =>
    intro nodes cur off lo c h
    rw [insertLoop]
    split
    · exact ih _ _ _ _ _ (AMap.nodup_set h _ _)
    · exact ih _ _ _ _ _ h

theorem newNode_some (str : Nat) (ls : List Bytes) : ∀ (cur : Path) (off : Nat) (q : Path) (n : Node),
    newNode str cur off ls q = some n →
    (∃ pre l post, ls = pre ++ l :: post ∧ q = cur ++ pre ++ [l]) ∧ n.sub = none ∧ n.owns = false ∧
      n.filterStr = str ∧ n.topicStr = str := by
  induction ls with
  | nil => intro cur off q n h; simp [newNode] at h
  | cons l ls ih =>
    intro cur off q n h
    rw [newNode] at h
    split at h
    · next hq =>
      simp only [Option.some.injEq] at h
      subst h
      exact ⟨⟨[], l, ls, rfl, by simp [hq]⟩, rfl, rfl, rfl, rfl⟩
    · obtain ⟨⟨pre, m, post, h1, h2⟩, h3⟩ := ih _ _ _ _ h
      exact ⟨⟨l :: pre, m, post, by simp [h1], by simp [h2]⟩, h3⟩

theorem newNode_ne_none (str : Nat) (ls : List Bytes) : ∀ (cur : Path) (off : Nat) (pre : List Bytes) (l : Bytes)
    (post : List Bytes), ls = pre ++ l :: post → newNode str cur off ls (cur ++ pre ++ [l]) ≠ none := by
  induction ls with
  | nil => intro cur off pre l post h; simp at h
  | cons m ls ih =>
    intro cur off pre l post h
    rw [newNode]
    split
    · simp
    · cases pre with
      | nil =>
        next hn => simp only [List.nil_append, List.cons.injEq] at h; exact absurd (by simp [h.1]) hn
      | cons x pre =>
        simp only [List.cons_append, List.cons.injEq] at h
        have := ih (cur ++ [m]) (off + m.length + 1) pre l post h.2
        simpa [h.1] using this

/-- Everything the insertion can reach is found below. -/
theorem newNode_iff (str off : Nat) (ls : List Bytes) (q : Path) :
    newNode str [] off ls q ≠ none ↔ q ≠ [] ∧ q <+: ls := by
  constructor
  · intro h
    obtain ⟨n, hn⟩ := Option.ne_none_iff_exists'.1 h
    obtain ⟨⟨pre, l, post, h1, h2⟩, _⟩ := newNode_some _ _ _ _ _ _ hn
    subst h2
    refine ⟨by simp, ⟨post, by simp [h1]⟩⟩
  · rintro ⟨h1, h2⟩
    obtain ⟨post, h2⟩ := h2
    have := newNode_ne_none str ls [] off q.dropLast (q.getLast h1) post (by
      rw [List.append_cons, List.dropLast_concat_getLast]; exact h2.symm)
    rwa [List.nil_append, List.dropLast_concat_getLast] at this

/-! ### The structural invariant -/

/-- Well-formed node map, possibly in the middle of a transaction. -/
structure InvP (nodes : AMap Path Node) : Prop where
  nodup : nodes.Nodup
  noRoot : nodes.get [] = none
  closed : ∀ p l, nodes.get (p ++ [l]) ≠ none → p ≠ [] → nodes.get p ≠ none
  hash : ∀ p l, nodes.get (p ++ [[35]] ++ [l]) = none

/-- Well-formed and no dead leaves. -/
structure Inv (nodes : AMap Path Node) : Prop extends InvP nodes where
  live : ∀ p n, nodes.get p = some n → n.sub = none → hasChild nodes p = true

theorem inv_init : Inv (Tree.init.nodes) :=
  { nodup := AMap.nodup_nil, noRoot := rfl, closed := by simp [Tree.init], hash := by simp [Tree.init]
    live := by simp [Tree.init] }

/-- Filters whose `#` is only the last level (every legal filter). -/
def HashLast (ls : List Bytes) : Prop := ∀ pre l post, ls = pre ++ [35] :: l :: post → False

theorem hashLast_of_filter {f : Bytes} (h : Spec.TopicFilter f) : HashLast (split 47 f) := by
  obtain ⟨_, _, _, ls, h1, _, h3⟩ := h
  rw [split_of_levels h1]
  intro pre l post e
  have := (h3 pre [35] (l :: post) e (by simp)).2
  simp at this

theorem prefix_dropLast {q l : Path} {x : Bytes} (h : q ++ [x] <+: l) : q <+: l :=
  (List.prefix_append q [x]).trans h

theorem closed_prefix {nodes : AMap Path Node}
    (h : ∀ p l, nodes.get (p ++ [l]) ≠ none → p ≠ [] → nodes.get p ≠ none) {p : Path} (hp : nodes.get p ≠ none) :
    ∀ (q s : Path), p = q ++ s → q ≠ [] → nodes.get q ≠ none := by
  intro q s
  induction s using List.reverseRecOn generalizing p with
  | nil => intro e _; simp at e; rwa [← e]
  | append_singleton s x ih =>
    intro e hq
    have : nodes.get (q ++ s) ≠ none := by
      apply h (q ++ s) x
      · rw [List.append_assoc, ← e]; exact hp
      · simp [hq]
    exact ih this rfl hq

theorem InvP.of_same_keys {a b : AMap Path Node} (h : InvP a) (hn : b.Nodup)
    (hk : ∀ q, b.get q ≠ none ↔ a.get q ≠ none) : InvP b := by
  refine ⟨hn, ?_, ?_, ?_⟩
  · have := hk []
    rw [h.noRoot] at this
    simpa using this
  · intro p l h1 h2
    exact (hk p).2 (h.closed p l ((hk _).1 h1) h2)
  · intro p l
    have := hk (p ++ [[35]] ++ [l])
    rw [h.hash p l] at this
    simpa using this

/-! ### User data held by the table -/

/-- User data that a cleanup would receive, over all nodes. -/
def held (nodes : AMap Path Node) : List Nat := nodes.flatMap fun e => cleanupOf e.2.sub

theorem held_perm {a b : AMap Path Node} (h : a.Perm b) (u : Nat) : (held a).count u = (held b).count u :=
  (h.flatMap_right _).count_eq u

theorem held_set_new {nodes : AMap Path Node} {p : Path} {n : Node} (hp : nodes.get p = none) (u : Nat) :
    (held (nodes.set p n)).count u = (cleanupOf n.sub).count u + (held nodes).count u := by
  rw [held_perm (AMap.perm_set p n hp)]
  simp [held]

theorem held_del {nodes : AMap Path Node} (hn : nodes.Nodup) {p : Path} {n : Node} (hp : nodes.get p = some n) (u : Nat) :
    (cleanupOf n.sub).count u + (held (nodes.del p)).count u = (held nodes).count u := by
  rw [held_perm (AMap.perm_del hn hp)]
  simp [held]

theorem held_set {nodes : AMap Path Node} (hn : nodes.Nodup) {p : Path} {n m : Node} (hp : nodes.get p = some n) (u : Nat) :
    (cleanupOf n.sub).count u + (held (nodes.set p m)).count u = (cleanupOf m.sub).count u + (held nodes).count u := by
  have := held_del hn hp u
  have h2 : (held (nodes.set p m)).count u = (cleanupOf m.sub).count u + (held (nodes.del p)).count u := by
    simp [held, AMap.set]
  omega

theorem insertLoop_held (str : Nat) (ls : List Bytes) (u : Nat) : ∀ (nodes : AMap Path Node) (cur : Path) (off lo : Nat)
    (c : Option (Path × Path)), (held (insertLoop str nodes cur off lo c ls).1).count u = (held nodes).count u := by
  induction ls with
  | nil => intros; rfl
  | cons l ls ih =>
    intro nodes cur off lo c
    rw [insertLoop]
    split
    · next h => rw [ih, held_set_new h]; simp [cleanupOf]
    · exact ih _ _ _ _ _

/-! ### Insert -/

theorem txInsert_nodes (t : Tree) (f : Bytes) (s : Sub) :
    (txInsert t f s).1.nodes = (insertLoop t.strings.length t.nodes [] 0 0 none (split 47 f)).1 := by
  unfold txInsert; simp only; split <;> rfl

theorem txInsert_get (t : Tree) (f : Bytes) (s : Sub) (q : Path) :
    (txInsert t f s).1.nodes.get q = (t.nodes.get q).or (newNode t.strings.length [] 0 (split 47 f) q) := by
  rw [txInsert_nodes, insertLoop_get]

theorem txInsert_cleaned (t : Tree) (f : Bytes) (s : Sub) : (txInsert t f s).1.cleaned = t.cleaned := by
  unfold txInsert; simp only; split <;> rfl

theorem txInsert_action (t : Tree) (f : Bytes) (s : Sub) :
    (txInsert t f s).2.node = split 47 f ∧ (txInsert t f s).2.sub = some s ∧ (txInsert t f s).2.mode ≠ .remove := by
  unfold txInsert
  simp only
  split <;> split <;> simp

theorem txInsert_get_some {t : Tree} {f : Bytes} {s : Sub} {q : Path} {n : Node} (h : t.nodes.get q = some n) :
    (txInsert t f s).1.nodes.get q = some n := by
  rw [txInsert_get, h]; rfl

theorem txInsert_ne_none (t : Tree) (f : Bytes) (s : Sub) (q : Path) :
    (txInsert t f s).1.nodes.get q ≠ none ↔ t.nodes.get q ≠ none ∨ (q ≠ [] ∧ q <+: split 47 f) := by
  rw [txInsert_get, ← newNode_iff t.strings.length 0]
  cases t.nodes.get q <;> simp

theorem txInsert_subAt (t : Tree) (f : Bytes) (s : Sub) (q : Path) :
    subAt (txInsert t f s).1.nodes q = subAt t.nodes q := by
  unfold subAt
  rw [txInsert_get]
  cases h : t.nodes.get q with
  | some n => rfl
  | none =>
    cases h2 : newNode t.strings.length [] 0 (split 47 f) q with
    | none => rfl
    | some n => simp [(newNode_some _ _ _ _ _ _ h2).2.1]

theorem txInsert_invP {t : Tree} (h : InvP t.nodes) {f : Bytes} (hf : HashLast (split 47 f)) (s : Sub) :
    InvP (txInsert t f s).1.nodes := by
  refine ⟨?_, ?_, ?_, ?_⟩
  · rw [txInsert_nodes]; exact insertLoop_nodup _ _ _ _ _ _ _ h.nodup
  · have := txInsert_ne_none t f s []
    rw [h.noRoot] at this
    simpa using this
  · intro p l hp hne
    rw [txInsert_ne_none] at hp ⊢
    rcases hp with hp | ⟨_, hp⟩
    · exact .inl (h.closed p l hp hne)
    · exact .inr ⟨hne, prefix_dropLast hp⟩
  · intro p l
    have h2 := h.hash p l
    by_cases hc : (txInsert t f s).1.nodes.get (p ++ [[35]] ++ [l]) = none
    · exact hc
    · rw [← ne_eq, txInsert_ne_none] at hc
      rcases hc with hc | ⟨_, post, hc⟩
      · exact absurd h2 hc
      · exact absurd (hf p l post (by rw [← hc]; simp)) id

/-- Every node without subscription has a child, except the targets of pending actions. -/
def LiveMod (nodes : AMap Path Node) (pending : List Path) : Prop :=
  ∀ p n, nodes.get p = some n → n.sub = none → hasChild nodes p = true ∨ p ∈ pending

theorem txInsert_liveMod {t : Tree} {pending : List Path} (h : LiveMod t.nodes pending) (f : Bytes) (s : Sub) :
    LiveMod (txInsert t f s).1.nodes (split 47 f :: pending) := by
  intro p n hp hs
  have mono : hasChild t.nodes p = true → hasChild (txInsert t f s).1.nodes p = true := by
    rw [hasChild_iff, hasChild_iff]
    rintro ⟨l, hl⟩
    exact ⟨l, (txInsert_ne_none t f s _).2 (.inl hl)⟩
  cases ho : t.nodes.get p with
  | some m =>
    rw [txInsert_get_some ho] at hp
    simp only [Option.some.injEq] at hp
    subst hp
    rcases h p m ho hs with h1 | h1
    · exact .inl (mono h1)
    · exact .inr (by simp [h1])
  | none =>
    have := (txInsert_ne_none t f s p).1 (by simp [hp])
    rw [ho] at this
    simp only [ne_eq, not_true_eq_false, false_or] at this
    obtain ⟨hne, post, hpost⟩ := this
    cases post with
    | nil => right; simp only [List.append_nil] at hpost; simp [hpost]
    | cons x post =>
      left
      rw [hasChild_iff]
      refine ⟨x, (txInsert_ne_none t f s _).2 (.inr ⟨by simp, post, by simpa using hpost⟩)⟩

/-! ### Commit of an insertion -/

theorem commitAdd_spec {t : Tree} {a : Action} {n : Node} (h : t.nodes.get a.node = some n) :
    ∃ m : Node, m.sub = a.sub ∧ (commitAdd t a).nodes = t.nodes.set a.node m ∧
      (commitAdd t a).cleaned = t.cleaned ++ cleanupOf n.sub := by
  unfold commitAdd
  simp only [h]
  cases ht : a.topic with
  | none =>
    cases hf : a.topicFilter with
    | none => exact ⟨_, rfl, rfl, rfl⟩
    | some s =>
      simp only
      split
      · exact ⟨_, rfl, rfl, rfl⟩
      · exact ⟨{ n with sub := a.sub, filterStr := s, owns := true }, rfl, rfl, rfl⟩
  | some so =>
    cases hf : a.topicFilter with
    | none => exact ⟨_, rfl, rfl, rfl⟩
    | some s =>
      simp only
      split
      · exact ⟨_, rfl, rfl, rfl⟩
      · exact ⟨{ n with sub := a.sub, topicStr := so.1, topicOff := so.2, filterStr := s, owns := true }, rfl, rfl, rfl⟩

theorem set_keys {nodes : AMap Path Node} {p : Path} {n m : Node} (h : nodes.get p = some n) (q : Path) :
    (nodes.set p m).get q ≠ none ↔ nodes.get q ≠ none := by
  rw [AMap.get_set]
  split
  · next e => subst e; simp [h]
  · rfl

theorem hasChild_set {nodes : AMap Path Node} {p : Path} {n m : Node} (h : nodes.get p = some n) (q : Path) :
    hasChild (nodes.set p m) q = hasChild nodes q := by
  rw [Bool.eq_iff_iff, hasChild_iff, hasChild_iff]
  exact exists_congr fun l => set_keys h _

/-- Committing the actions of a transaction of insertions. -/
theorem commit_adds (pick : List Nat → Nat) (as : List Action) : ∀ (t : Tree) (pending : List Path),
    InvP t.nodes → (∀ a ∈ as, a.mode ≠ .remove ∧ a.sub ≠ none ∧ t.nodes.get a.node ≠ none) →
    LiveMod t.nodes (as.map (·.node) ++ pending) →
    InvP (commit pick t as).nodes ∧ LiveMod (commit pick t as).nodes pending ∧
    (∀ q, subAt (commit pick t as).nodes q =
      as.foldl (fun (g : Path → Option Sub) a => fun q => if q = a.node then a.sub else g q) (subAt t.nodes) q) ∧
    (∀ u, (commit pick t as).cleaned.count u + (held (commit pick t as).nodes).count u =
      t.cleaned.count u + (held t.nodes).count u + (as.flatMap fun a => cleanupOf a.sub).count u) := by
  induction as with
  | nil => intro t pending h1 _ h3; exact ⟨h1, h3, fun q => rfl, fun u => by simp [commit]⟩
  | cons a as ih =>
    intro t pending h1 h2 h3
    obtain ⟨ha1, ha2, ha3⟩ := h2 a (by simp)
    obtain ⟨n, hn⟩ := Option.ne_none_iff_exists'.1 ha3
    obtain ⟨m, hm1, hm2, hm3⟩ := commitAdd_spec hn
    have hc : commit pick t (a :: as) = commit pick (commitAdd t a) as := by
      unfold commit
      rw [List.foldl_cons]
      congr 1
      unfold commitAction
      split <;> simp_all
    rw [hc]
    have g1 : InvP (commitAdd t a).nodes := by
      rw [hm2]
      exact h1.of_same_keys (AMap.nodup_set h1.nodup _ _) (set_keys hn)
    have g2 : ∀ b ∈ as, b.mode ≠ .remove ∧ b.sub ≠ none ∧ (commitAdd t a).nodes.get b.node ≠ none := by
      intro b hb
      obtain ⟨x, y, z⟩ := h2 b (by simp [hb])
      exact ⟨x, y, by rw [hm2, set_keys hn]; exact z⟩
    have g3 : LiveMod (commitAdd t a).nodes (as.map (·.node) ++ pending) := by
      intro p k hk hs
      rw [hm2, AMap.get_set] at hk
      rw [hm2, hasChild_set hn]
      split at hk
      · simp only [Option.some.injEq] at hk
        subst hk
        rw [hm1] at hs
        exact absurd hs ha2
      · next hne =>
        rcases h3 p k hk hs with h | h
        · exact .inl h
        · simp only [List.map_cons, List.cons_append, List.mem_cons] at h
          rcases h with h | h
          · exact absurd h hne
          · exact .inr h
    obtain ⟨r1, r2, r3, r4⟩ := ih (commitAdd t a) pending g1 g2 g3
    refine ⟨r1, r2, ?_, ?_⟩
    · intro q
      have e : subAt (commitAdd t a).nodes = fun q => if q = a.node then a.sub else subAt t.nodes q := by
        funext q
        unfold subAt
        rw [hm2, AMap.get_set]
        split
        · simp [hm1]
        · rfl
      rw [r3, List.foldl_cons, e]
    · intro u
      have := held_set h1.nodup hn (m := m) u
      rw [hm1] at this
      rw [r4 u, hm2, hm3, List.count_append, List.flatMap_cons, List.count_append]
      omega

theorem txInserts_spec (fs : List (Bytes × Sub)) : ∀ (t : Tree) (pending : List Path),
    InvP t.nodes → LiveMod t.nodes pending → (∀ e ∈ fs, HashLast (split 47 e.1)) →
    InvP (txInserts t fs).1.nodes ∧
    LiveMod (txInserts t fs).1.nodes (fs.map (fun e => split 47 e.1) ++ pending) ∧
    (txInserts t fs).2.map (fun a => (a.node, a.sub)) = fs.map (fun e => (split 47 e.1, some e.2)) ∧
    (∀ a ∈ (txInserts t fs).2, a.mode ≠ .remove ∧ a.sub ≠ none ∧ (txInserts t fs).1.nodes.get a.node ≠ none) ∧
    (∀ q, subAt (txInserts t fs).1.nodes q = subAt t.nodes q) ∧
    (txInserts t fs).1.cleaned = t.cleaned ∧
    (∀ u, (held (txInserts t fs).1.nodes).count u = (held t.nodes).count u) ∧
    (∀ q, t.nodes.get q ≠ none → (txInserts t fs).1.nodes.get q ≠ none) := by
  induction fs with
  | nil =>
    intro t pending h1 h2 _
    exact ⟨h1, by simpa [txInserts] using h2, rfl, by simp [txInserts], fun _ => rfl, rfl, fun _ => rfl, fun _ h => h⟩
  | cons e fs ih =>
    obtain ⟨f, s⟩ := e
    intro t pending h1 h2 h3
    have g1 := txInsert_invP h1 (h3 (f, s) (by simp)) s
    have g2 := txInsert_liveMod h2 f s
    obtain ⟨r1, r2, r3, r4, r5, r6, r7, r8⟩ := ih (txInsert t f s).1 _ g1 g2 (fun e he => h3 e (by simp [he]))
    obtain ⟨a1, a2, a3⟩ := txInsert_action t f s
    simp only [txInserts]
    refine ⟨r1, ?_, ?_, ?_, ?_, ?_, ?_, ?_⟩
    · intro p n hp hn
      rcases r2 p n hp hn with h | h
      · exact .inl h
      · right
        simp only [List.mem_append, List.mem_cons, List.map_cons, List.cons_append] at h ⊢
        rcases h with h | h | h <;> simp [h]
    · simp only [List.map_cons, r3, a1, a2]
    · intro a ha
      simp only [List.mem_cons] at ha
      rcases ha with rfl | ha
      · refine ⟨a3, by simp [a2], r8 _ ?_⟩
        rw [a1, txInsert_ne_none]
        exact .inr ⟨split_ne_nil _ _, List.prefix_rfl⟩
      · exact r4 a ha
    · intro q; rw [r5, txInsert_subAt]
    · rw [r6, txInsert_cleaned]
    · intro u; rw [r7, txInsert_nodes, insertLoop_held]
    · intro q hq; exact r8 q ((txInsert_ne_none _ _ _ _).2 (.inl hq))

/-- SUBSCRIBE: invariant, new contents, user data accounting. -/
theorem subscribe_spec (pick : List Nat → Nat) {t : Tree} (h : Inv t.nodes) (fs : List (Bytes × Sub))
    (hf : ∀ e ∈ fs, HashLast (split 47 e.1)) :
    Inv (subscribe pick t fs).nodes ∧
    (∀ q, subAt (subscribe pick t fs).nodes q =
      fs.foldl (fun (g : Path → Option Sub) e => fun q => if q = split 47 e.1 then some e.2 else g q) (subAt t.nodes) q) ∧
    (∀ u, (subscribe pick t fs).cleaned.count u + (held (subscribe pick t fs).nodes).count u =
      t.cleaned.count u + (held t.nodes).count u + (fs.flatMap fun e => cleanupOf (some e.2)).count u) := by
  obtain ⟨r1, r2, r3, r4, r5, r6, r7, _⟩ := txInserts_spec fs t [] h.toInvP (fun p n hp hs => .inl (h.live p n hp hs)) hf
  have hnode : (txInserts t fs).2.map (·.node) = fs.map (fun e => split 47 e.1) := by
    have := congrArg (List.map Prod.fst) r3
    simpa [Function.comp_def] using this
  rw [List.append_nil] at r2
  rw [← hnode] at r2
  obtain ⟨c1, c2, c3, c4⟩ := commit_adds pick (txInserts t fs).2 (txInserts t fs).1 [] r1 r4 (by simpa using r2)
  refine ⟨{ c1 with live := ?_ }, ?_, ?_⟩
  · intro p n hp hs
    have := c2 p n hp hs
    simp only [List.not_mem_nil, or_false] at this
    exact this
  · intro q
    have key : ∀ (as : List Action) (fs : List (Bytes × Sub)) (g : Path → Option Sub),
        as.map (fun a => (a.node, a.sub)) = fs.map (fun e => (split 47 e.1, some e.2)) →
        as.foldl (fun (g : Path → Option Sub) a => fun q => if q = a.node then a.sub else g q) g =
        fs.foldl (fun (g : Path → Option Sub) e => fun q => if q = split 47 e.1 then some e.2 else g q) g := by
      intro as
      induction as with
      | nil => intro fs g h; cases fs <;> simp_all
      | cons a as ih =>
        intro fs g h
        cases fs with
        | nil => simp at h
        | cons e fs =>
          simp only [List.map_cons, List.cons.injEq, Prod.mk.injEq] at h
          simp only [List.foldl_cons]
          rw [ih fs _ h.2, h.1.1, h.1.2]
    show subAt (commit pick _ _).nodes q = _
    rw [c3, key _ fs _ r3, funext r5]
  · intro u
    have key : (txInserts t fs).2.flatMap (fun a => cleanupOf a.sub) = fs.flatMap fun e => cleanupOf (some e.2) := by
      have := congrArg (List.flatMap (fun e : Path × Option Sub => cleanupOf e.2)) r3
      simpa [List.flatMap_map] using this
    have := c4 u
    rw [key, r6, r7] at this
    exact this

/-! ### Remove -/

theorem take_succ_append (p : Path) (i : Nat) (h : i < p.length) : p.take (i + 1) = p.take i ++ [p[i]] := by
  rw [List.take_append_getElem]

theorem take_ne_nil {p : Path} {i : Nat} (h : 0 < i) (hi : i ≤ p.length) : p.take i ≠ [] := by
  intro e
  have := congrArg List.length e
  rw [List.length_take, List.length_nil] at this
  omega

theorem take_inj {p : Path} {i j : Nat} (hi : i ≤ p.length) (hj : j ≤ p.length) (h : p.take i = p.take j) : i = j := by
  have := congrArg List.length h
  rw [List.length_take, List.length_take] at this
  omega

open Classical in
/-- The pruning loop: nodes above `left` on the path disappear, nothing else changes. -/
theorem pruneLoop_spec (p : Path) (last : Nat) : ∀ (i : Nat) (nodes : AMap Path Node) (freed : List Nat),
    i ≤ p.length → nodes.Nodup → (∀ j, 0 < j → j ≤ i → nodes.get (p.take j) ≠ none) →
    (∀ q l, nodes.get (q ++ [l]) ≠ none → q ≠ [] → nodes.get q ≠ none) →
    let r := pruneLoop p last nodes freed i
    r.2.2 ≤ i ∧ r.1.Nodup ∧
    (∀ q, r.1.get q = if (∃ j, r.2.2 < j ∧ j ≤ i ∧ q = p.take j) then none else nodes.get q) ∧
    (∀ j n, r.2.2 < j → j ≤ i → nodes.get (p.take j) = some n → n.sub = none) ∧
    (0 < r.2.2 → ∃ n, r.1.get (p.take r.2.2) = some n ∧ (n.sub ≠ none ∨ hasChild r.1 (p.take r.2.2) = true)) ∧
    (∀ q l, r.1.get (q ++ [l]) ≠ none → q ≠ [] → r.1.get q ≠ none) := by
  intro i
  induction i with
  | zero =>
    intro nodes freed _ hnd _ hcl
    refine ⟨Nat.le_refl _, hnd, ?_, ?_, ?_, hcl⟩
    · intro q
      rw [if_neg]; · rfl
      rintro ⟨j, h1, h2, _⟩; omega
    · intro j n h1 h2; omega
    · intro h; exact absurd h (by simp [pruneLoop])
  | succ i ih =>
    intro nodes freed hi hnd hex hcl
    have hne := hex (i + 1) (by omega) (Nat.le_refl _)
    obtain ⟨n, hn⟩ := Option.ne_none_iff_exists'.1 hne
    simp only [pruneLoop, hn]
    split
    · next hc =>
      have hchild := hasChild_false_iff.1 hc.2
      have hex' : ∀ j, 0 < j → j ≤ i → (nodes.del (p.take (i + 1))).get (p.take j) ≠ none := by
        intro j h1 h2
        rw [AMap.get_del, if_neg]
        · exact hex j h1 (by omega)
        · intro e; have := take_inj (by omega) hi e; omega
      have hcl' : ∀ q l, (nodes.del (p.take (i + 1))).get (q ++ [l]) ≠ none → q ≠ [] →
          (nodes.del (p.take (i + 1))).get q ≠ none := by
        intro q l h1 h2
        rw [AMap.get_del] at h1 ⊢
        split at h1
        · exact absurd rfl h1
        · split
          · next e => subst e; exact absurd (hchild l) h1
          · exact hcl q l h1 h2
      obtain ⟨r1, r2, r3, r4, r5, r6⟩ := ih (nodes.del (p.take (i + 1)))
        (if i + 1 ≠ last ∧ n.owns then n.filterStr :: freed else freed) (by omega) (AMap.nodup_del hnd _) hex' hcl'
      refine ⟨by omega, r2, ?_, ?_, r5, r6⟩
      · intro q
        rw [r3 q, AMap.get_del]
        by_cases hq : q = p.take (i + 1)
        · subst hq
          rw [if_pos rfl, ite_self, if_pos ⟨i + 1, by omega, Nat.le_refl _, rfl⟩]
        · rw [if_neg hq]
          by_cases hj : ∃ j, (pruneLoop p last (nodes.del (p.take (i + 1)))
              (if i + 1 ≠ last ∧ n.owns then n.filterStr :: freed else freed) i).2.2 < j ∧ j ≤ i ∧ q = p.take j
          · rw [if_pos hj]
            obtain ⟨j, a, b, c⟩ := hj
            rw [if_pos ⟨j, a, by omega, c⟩]
          · rw [if_neg hj, if_neg]
            rintro ⟨j, a, b, c⟩
            by_cases hji : j ≤ i
            · exact hj ⟨j, a, hji, c⟩
            · exact hq (by rw [c]; congr 1; omega)
      · intro j m h1 h2 hm
        by_cases hji : j ≤ i
        · apply r4 j m h1 hji
          rw [AMap.get_del, if_neg]
          · exact hm
          · intro e; have := take_inj (by omega) hi e; omega
        · have : j = i + 1 := by omega
          subst this
          rw [hn] at hm
          simp only [Option.some.injEq] at hm
          rw [← hm]; exact hc.1
    · next hc =>
      refine ⟨Nat.le_refl _, hnd, ?_, ?_, ?_, hcl⟩
      · intro q
        rw [if_neg]
        rintro ⟨j, h1, h2, _⟩
        have h1' : i + 1 < j := h1
        omega
      · intro j n h1 h2
        have h1' : i + 1 < j := h1
        omega
      · intro _
        refine ⟨n, hn, ?_⟩
        by_cases hs : n.sub = none
        · right
          simp only [hs, true_and, Bool.not_eq_false] at hc
          exact hc
        · exact .inl hs

/-- Same nodes with the same subscriptions, whatever the strings. -/
def SameSubs (a b : AMap Path Node) : Prop := ∀ q, (a.get q).map (·.sub) = (b.get q).map (·.sub)

theorem sameSubs_set {nodes : AMap Path Node} {p : Path} {n m : Node} (h : nodes.get p = some n) (hs : m.sub = n.sub) :
    SameSubs (nodes.set p m) nodes := by
  intro q
  rw [AMap.get_set]
  split
  · next e => subst e; simp [h, hs]
  · rfl

theorem fixupLoop_sameSubs (pick : List Nat → Nat) (p : Path) (old : Nat) : ∀ (i : Nat) (nodes : AMap Path Node)
    (freed : List Nat) (off : Nat) (ns : Option Nat) (st : Bool), nodes.Nodup →
    SameSubs (fixupLoop pick p old nodes freed off ns st i).1 nodes ∧
      (fixupLoop pick p old nodes freed off ns st i).1.Nodup ∧
      ∀ u, (held (fixupLoop pick p old nodes freed off ns st i).1).count u = (held nodes).count u := by
  intro i
  induction i with
  | zero => intro nodes freed off ns st h; exact ⟨fun _ => rfl, h, fun _ => rfl⟩
  | succ i ih =>
    intro nodes freed off ns st h
    rw [fixupLoop]
    split
    · exact ⟨fun _ => rfl, h, fun _ => rfl⟩
    · next n hn =>
      simp only
      split
      · split
        · next s =>
          have key : ∀ m : Node, m.sub = n.sub → SameSubs (nodes.set (p.take (i + 1)) m) nodes ∧
              (held (nodes.set (p.take (i + 1)) m)).count = (held nodes).count := by
            intro m hm
            refine ⟨sameSubs_set hn hm, funext fun u => ?_⟩
            have := held_set h hn (m := m) u
            rw [hm] at this
            exact Nat.add_left_cancel this
          obtain ⟨a, b, c⟩ := ih _ freed (off - ((p.getD i []).length + 1)) (some s) st (AMap.nodup_set h _ _)
          obtain ⟨k1, k2⟩ := key { n with filterStr := s, topicStr := s, topicOff := off - ((p.getD i []).length + 1) } rfl
          exact ⟨fun q => (a q).trans (k1 q), b, fun u => (c u).trans (congrFun k2 u)⟩
        · have key : ∀ m : Node, m.sub = n.sub → SameSubs (nodes.set (p.take (i + 1)) m) nodes ∧
              (held (nodes.set (p.take (i + 1)) m)).count = (held nodes).count := by
            intro m hm
            refine ⟨sameSubs_set hn hm, funext fun u => ?_⟩
            have := held_set h hn (m := m) u
            rw [hm] at this
            exact Nat.add_left_cancel this
          obtain ⟨a, b, c⟩ := ih _ (old :: freed) (off - ((p.getD i []).length + 1)) _ true (AMap.nodup_set h _ _)
          obtain ⟨k1, k2⟩ := key { n with
            filterStr := pickString pick (finderCandidates nodes (p.take (i + 1)) old) old
            topicStr := pickString pick (finderCandidates nodes (p.take (i + 1)) old) old
            topicOff := off - ((p.getD i []).length + 1) } rfl
          exact ⟨fun q => (a q).trans (k1 q), b, fun u => (c u).trans (congrFun k2 u)⟩
      · exact ih _ _ _ _ _ h

theorem SameSubs.keys {a b : AMap Path Node} (h : SameSubs a b) (q : Path) : a.get q ≠ none ↔ b.get q ≠ none := by
  have := h q
  cases ha : a.get q <;> cases hb : b.get q <;> simp_all

theorem SameSubs.subAt {a b : AMap Path Node} (h : SameSubs a b) (q : Path) : subAt a q = subAt b q := by
  have := h q
  unfold TopicTree.subAt
  cases ha : a.get q <;> cases hb : b.get q <;> simp_all

theorem SameSubs.inv {a b : AMap Path Node} (h : SameSubs a b) (hn : a.Nodup) (hi : Inv b) : Inv a := by
  refine { hi.toInvP.of_same_keys hn h.keys with live := ?_ }
  intro p n hp hs
  have h1 := h p
  rw [hp] at h1
  cases hb : b.get p with
  | none => simp [hb] at h1
  | some m =>
    simp only [hb, Option.map_some, Option.some.injEq] at h1
    have := hi.live p m hb (by rw [← h1]; exact hs)
    rw [hasChild_iff] at this ⊢
    obtain ⟨l, hl⟩ := this
    exact ⟨l, (h.keys _).2 hl⟩

theorem held_pruneLoop (p : Path) (last u : Nat) : ∀ (i : Nat) (nodes : AMap Path Node) (freed : List Nat),
    nodes.Nodup → (held (pruneLoop p last nodes freed i).1).count u = (held nodes).count u := by
  intro i
  induction i with
  | zero => intros; rfl
  | succ i ih =>
    intro nodes freed h
    rw [pruneLoop]
    split
    · rfl
    · next n hn =>
      split
      · next hc =>
        rw [ih _ _ (AMap.nodup_del h _)]
        have := held_del h hn u
        rw [hc.1] at this
        simpa [cleanupOf] using this
      · rfl

/-- What is left after pruning. -/
theorem prune_inv {nodes : AMap Path Node} (h : Inv nodes) {p : Path} {c : Node} (hp : nodes.get p = some c)
    (freed : List Nat) :
    let r := pruneLoop p p.length (nodes.set p { c with sub := none }) freed p.length
    Inv r.1 ∧ (∀ q, subAt r.1 q = if q = p then none else subAt nodes q) := by
  have hset := fun q => set_keys (m := { c with sub := none }) hp q
  have hInvP : InvP (nodes.set p { c with sub := none }) := h.toInvP.of_same_keys (AMap.nodup_set h.nodup _ _) hset
  have hex : ∀ j, 0 < j → j ≤ p.length → (nodes.set p { c with sub := none }).get (p.take j) ≠ none := by
    intro j h1 h2
    exact closed_prefix hInvP.closed (p := p) (by simp) (p.take j) (p.drop j) (by simp) (take_ne_nil h1 h2)
  obtain ⟨r1, r2, r3, r4, r5, r6⟩ := pruneLoop_spec p p.length p.length _ freed (Nat.le_refl _) hInvP.nodup hex hInvP.closed
  intro r
  have hsub : ∀ q, subAt r.1 q = if q = p then none else subAt nodes q := by
    intro q
    have hset_sub : subAt (nodes.set p { c with sub := none }) q = if q = p then none else subAt nodes q := by
      unfold subAt
      rw [AMap.get_set]
      split <;> rfl
    rw [← hset_sub]
    unfold subAt
    rw [r3 q]
    split
    · next hj =>
      obtain ⟨j, a, b, e⟩ := hj
      obtain ⟨n, hn⟩ := Option.ne_none_iff_exists'.1 (hex j (by omega) b)
      rw [e, hn]
      simp [r4 j n a b hn]
    · rfl
  refine ⟨⟨⟨r2, ?_, r6, ?_⟩, ?_⟩, hsub⟩
  · rw [r3, hInvP.noRoot]; split <;> rfl
  · intro q l; rw [r3, hInvP.hash]; split <;> rfl
  · intro q n hq hs
    have hq' := hq
    rw [r3 q] at hq'
    split at hq'
    · simp at hq'
    · next hnj =>
      by_cases hqp : q = p.take r.2.2 ∧ 0 < r.2.2
      · obtain ⟨hqp, hpos⟩ := hqp
        obtain ⟨m, hm, hor⟩ := r5 hpos
        rw [← hqp] at hm hor
        rw [hq] at hm
        simp only [Option.some.injEq] at hm
        subst hm
        rcases hor with h1 | h1
        · exact absurd hs h1
        · exact h1
      · by_cases hqj : ∃ j, 0 < j ∧ j < r.2.2 ∧ q = p.take j
        · obtain ⟨j, h1, h2, h3⟩ := hqj
          have hlen : r.2.2 ≤ p.length := r1
          rw [hasChild_iff]
          refine ⟨p[j]'(by omega), ?_⟩
          rw [h3, ← take_succ_append p j (by omega), r3, if_neg]
          · exact hex (j + 1) (by omega) (by omega)
          · rintro ⟨j', a, b, e⟩
            have := take_inj (by omega) b e
            have a' : r.2.2 < j' := a
            omega
        · -- off the path
          have hqne : q ≠ p := by
            intro e
            by_cases hl : r.2.2 < p.length
            · exact hnj ⟨p.length, hl, Nat.le_refl _, by simpa using e⟩
            · have hle : r.2.2 ≤ p.length := r1
              have : r.2.2 = p.length := by omega
              apply hqp
              rw [this]
              refine ⟨by simpa using e, ?_⟩
              apply Nat.pos_of_ne_zero
              intro h0
              have : p = [] := List.length_eq_zero_iff.1 h0
              rw [this, h.noRoot] at hp
              simp at hp
          rw [AMap.get_set, if_neg hqne] at hq'
          have hc := h.live q n hq' hs
          rw [hasChild_iff] at hc ⊢
          obtain ⟨l, hl⟩ := hc
          refine ⟨l, ?_⟩
          rw [r3, if_neg]
          · exact (hset _).2 hl
          · rintro ⟨j, a, b, e⟩
            have a' : r.2.2 < j := a
            have hj : q = p.take (j - 1) := by
              have := congrArg List.dropLast e
              rw [List.dropLast_concat, List.dropLast_eq_take, List.length_take, Nat.min_eq_left b, List.take_take,
                Nat.min_eq_left (by omega)] at this
              exact this
            by_cases h0 : j - 1 = r.2.2
            · by_cases hpos : 0 < r.2.2
              · exact hqp ⟨by rw [← h0]; exact hj, hpos⟩
              · have : j - 1 = 0 := by omega
                rw [this] at hj
                simp at hj
                subst hj
                rw [h.noRoot] at hq'
                simp at hq'
            · exact hnj ⟨j - 1, by show r.2.2 < j - 1; omega, by omega, hj⟩

theorem fst_match3 {α β γ : Type} (x : α × β × γ) : x = (x.1, x.2.1, x.2.2) := rfl

/-- UNSUBSCRIBE: invariant, new contents, user data accounting. -/
theorem unsubscribe_spec (pick : List Nat → Nat) {t : Tree} (h : Inv t.nodes) (f : Bytes) :
    Inv (unsubscribe pick t f).nodes ∧
    (∀ q, subAt (unsubscribe pick t f).nodes q = if q = split 47 f then none else subAt t.nodes q) ∧
    (∀ u, (unsubscribe pick t f).cleaned.count u + (held (unsubscribe pick t f).nodes).count u =
      t.cleaned.count u + (held t.nodes).count u) := by
  unfold unsubscribe txRemove
  cases hg : t.nodes.get (split 47 f) with
  | none =>
    simp only
    refine ⟨h, ?_, fun u => trivial⟩
    intro q
    split
    · next e => subst e; simp [subAt, hg]
    · rfl
  | some c =>
    obtain ⟨hi, hs⟩ := prune_inv h hg t.freed
    have hheld : ∀ u, (t.cleaned ++ cleanupOf c.sub).count u +
        (held (pruneLoop (split 47 f) (split 47 f).length (t.nodes.set (split 47 f) { c with sub := none }) t.freed
          (split 47 f).length).1).count u = t.cleaned.count u + (held t.nodes).count u := by
      intro u
      rw [held_pruneLoop _ _ _ _ _ _ (AMap.nodup_set h.nodup _ _), List.count_append]
      have := held_set h.nodup hg (m := { c with sub := none }) u
      simp only [show cleanupOf (none : Option Sub) = [] from rfl, List.count_nil, Nat.zero_add] at this
      omega
    generalize hr : pruneLoop (split 47 f) (split 47 f).length (t.nodes.set (split 47 f) { c with sub := none }) t.freed
      (split 47 f).length = r at hi hs hheld
    have hcommit : ∃ nodes' freed', (commit pick t [{ mode := .remove, node := split 47 f }]) =
        { t with nodes := nodes', freed := freed', cleaned := t.cleaned ++ cleanupOf c.sub } ∧
        SameSubs nodes' r.1 ∧ nodes'.Nodup ∧ ∀ u, (held nodes').count u = (held r.1).count u := by
      simp only [commit, List.foldl_cons, List.foldl_nil, commitAction, commitRemove, hg, hr]
      split
      · split
        · split
          · exact ⟨_, _, rfl, fun _ => rfl, hi.nodup, fun _ => rfl⟩
          · obtain ⟨a, b, c⟩ := fixupLoop_sameSubs pick (split 47 f) c.filterStr r.2.2 r.1 r.2.1 _ none false hi.nodup
            exact ⟨_, _, rfl, a, b, c⟩
        · exact ⟨_, _, rfl, fun _ => rfl, hi.nodup, fun _ => rfl⟩
      · exact ⟨_, _, rfl, fun _ => rfl, hi.nodup, fun _ => rfl⟩
    obtain ⟨nodes', freed', h1, h2, h3, h4⟩ := hcommit
    simp only [h1]
    refine ⟨h2.inv h3 hi, fun q => by rw [h2.subAt, hs], fun u => by rw [h4]; exact hheld u⟩

/-! ### Roll back -/

theorem insertLoop_created_some (str : Nat) (lf fc : Path) (ls : List Bytes) :
    ∀ (nodes : AMap Path Node) (cur : Path) (off lo : Nat), fc <+: cur →
    ∃ news : AMap Path Node, (insertLoop str nodes cur off lo (some (lf, fc)) ls).1 = news ++ nodes ∧
      (insertLoop str nodes cur off lo (some (lf, fc)) ls).2.1 = some (lf, fc) ∧
      ∀ e ∈ news, fc <+: e.1 ∧ e.2.sub = none ∧ e.2.owns = false := by
  induction ls with
  | nil => intro nodes cur off lo _; exact ⟨[], rfl, rfl, by simp⟩
  | cons l ls ih =>
    intro nodes cur off lo h
    have h' : fc <+: cur ++ [l] := h.trans (List.prefix_append _ _)
    rw [insertLoop]
    cases hg : nodes.get (cur ++ [l]) with
    | some n => simpa using ih nodes (cur ++ [l]) _ _ h'
    | none =>
      obtain ⟨news, h1, h2, h3⟩ := ih (nodes.set (cur ++ [l])
        { sub := none, topicStr := str, topicOff := off, filterStr := str, owns := false }) (cur ++ [l])
        (off + l.length + 1) off h'
      simp only [Option.some_or]
      refine ⟨news ++ [(cur ++ [l], { sub := none, topicStr := str, topicOff := off, filterStr := str, owns := false })], ?_, h2, ?_⟩
      · rw [h1, AMap.set, AMap.del_of_get_none hg]; simp
      · intro e he
        simp only [List.mem_append, List.mem_cons, List.not_mem_nil, or_false] at he
        rcases he with he | rfl
        · exact h3 e he
        · exact ⟨h', rfl, rfl⟩

theorem insertLoop_created_none (str : Nat) (ls : List Bytes) :
    ∀ (nodes : AMap Path Node) (cur : Path) (off lo : Nat),
    ((insertLoop str nodes cur off lo none ls).2.1 = none ∧ (insertLoop str nodes cur off lo none ls).1 = nodes) ∨
    ∃ (news : AMap Path Node) (lf fc : Path), (insertLoop str nodes cur off lo none ls).1 = news ++ nodes ∧
      (insertLoop str nodes cur off lo none ls).2.1 = some (lf, fc) ∧ nodes.get fc = none ∧ fc ≠ [] ∧
      ∀ e ∈ news, fc <+: e.1 ∧ e.2.sub = none ∧ e.2.owns = false := by
  induction ls with
  | nil => intro nodes cur off lo; exact .inl ⟨rfl, rfl⟩
  | cons l ls ih =>
    intro nodes cur off lo
    rw [insertLoop]
    cases hg : nodes.get (cur ++ [l]) with
    | some n => simpa using ih nodes (cur ++ [l]) _ _
    | none =>
      right
      obtain ⟨news, h1, h2, h3⟩ := insertLoop_created_some str cur (cur ++ [l]) ls (nodes.set (cur ++ [l])
        { sub := none, topicStr := str, topicOff := off, filterStr := str, owns := false }) (cur ++ [l])
        (off + l.length + 1) off List.prefix_rfl
      simp only [Option.none_or]
      refine ⟨news ++ [(cur ++ [l], { sub := none, topicStr := str, topicOff := off, filterStr := str, owns := false })],
        cur, cur ++ [l], ?_, h2, hg, by simp, ?_⟩
      · rw [h1, AMap.set, AMap.del_of_get_none hg]; simp
      · intro e he
        simp only [List.mem_append, List.mem_cons, List.not_mem_nil, or_false] at he
        rcases he with he | rfl
        · exact h3 e he
        · exact ⟨List.prefix_rfl, rfl, rfl⟩

/-- Parents exist. -/
def Closed (nodes : AMap Path Node) : Prop := ∀ p l, nodes.get (p ++ [l]) ≠ none → p ≠ [] → nodes.get p ≠ none

theorem txInsert_closed {t : Tree} (h : Closed t.nodes) (f : Bytes) (s : Sub) : Closed (txInsert t f s).1.nodes := by
  intro p l hp hne
  rw [txInsert_ne_none] at hp ⊢
  rcases hp with hp | ⟨_, hp⟩
  · exact .inl (h p l hp hne)
  · exact .inr ⟨hne, prefix_dropLast hp⟩

theorem txInsert_mode (t : Tree) (f : Bytes) (s : Sub) :
    (txInsert t f s).2.mode = (match (insertLoop t.strings.length t.nodes [] 0 0 none (split 47 f)).2.1 with
      | none => .update | some _ => .add) ∧
      (∀ lf fc, (insertLoop t.strings.length t.nodes [] 0 0 none (split 47 f)).2.1 = some (lf, fc) →
        (txInsert t f s).2.firstCreated = fc) := by
  unfold txInsert
  cases hcr : (insertLoop t.strings.length t.nodes [] 0 0 none (split 47 f)).2.1 with
  | none => simp only [hcr]; split <;> simp
  | some c =>
    obtain ⟨lf, fc⟩ := c
    simp only [hcr]
    refine ⟨?_, ?_⟩
    · split <;> rfl
    · intro a b e
      simp only [Option.some.injEq, Prod.mk.injEq] at e
      rw [← e.2]
      split <;> rfl

theorem txInsert_rollback {t : Tree} (h : Closed t.nodes) (f : Bytes) (s : Sub) (x : Tree)
    (hx : x.nodes = (txInsert t f s).1.nodes) (hc : x.cleaned = t.cleaned) :
    (rollbackAction x (txInsert t f s).2).nodes = t.nodes ∧
    (rollbackAction x (txInsert t f s).2).cleaned = t.cleaned := by
  have hact := txInsert_mode t f s
  rcases insertLoop_created_none t.strings.length (split 47 f) t.nodes [] 0 0 with ⟨h1, h2⟩ | ⟨news, lf, fc, h1, h2, h3, h4, h5⟩
  · rw [h1] at hact
    unfold rollbackAction
    rw [hact.1]
    simp only
    rw [hx, txInsert_nodes]
    exact ⟨h2, hc⟩
  · have hfc := hact.2 lf fc h2
    rw [h2] at hact
    unfold rollbackAction
    rw [hact.1]
    simp only [hfc]
    have hold : ∀ e ∈ t.nodes, ¬ (fc <+: e.1) := by
      rintro e he ⟨post, hp⟩
      have : t.nodes.get e.1 ≠ none := AMap.get_ne_none_iff.2 (List.mem_map.2 ⟨e, he, rfl⟩)
      exact closed_prefix h this fc post hp.symm h4 h3
    rw [hx, txInsert_nodes, h1, hc]
    refine ⟨?_, ?_⟩
    · rw [List.filter_append]
      have e1 : news.filter (fun e => !(fc.isPrefixOf e.1)) = [] := by
        rw [List.filter_eq_nil_iff]
        intro e he
        simpa using (h5 e he).1
      have e2 : t.nodes.filter (fun e => !(fc.isPrefixOf e.1)) = t.nodes := by
        rw [List.filter_eq_self]
        intro e he
        have := hold e he
        rw [← List.isPrefixOf_iff_prefix, Bool.not_eq_true] at this
        rw [this]; rfl
      rw [e1, e2]; rfl
    · unfold cleanedBelow
      have : (List.filter (fun e => fc.isPrefixOf e.1) (news ++ t.nodes)).flatMap (fun e => cleanupOf e.2.sub) = [] := by
        rw [List.flatMap_eq_nil_iff]
        intro e he
        rw [List.mem_filter] at he
        rcases List.mem_append.1 he.1 with h6 | h6
        · rw [(h5 e h6).2.1]; rfl
        · exact absurd (by simpa using he.2) (hold e h6)
      rw [this, List.append_nil]

theorem txInsert_ownedBelow {t : Tree} (h : Closed t.nodes) (f : Bytes) (s : Sub) (fc' : Path)
    (hadd : (txInsert t f s).2.mode = .add) (hfc' : (txInsert t f s).2.firstCreated = fc') :
    ownedBelow (txInsert t f s).1.nodes fc' = [] := by
  have hact : (txInsert t f s).2.mode = (match (insertLoop t.strings.length t.nodes [] 0 0 none (split 47 f)).2.1 with
      | none => .update | some _ => .add) ∧
      (∀ lf fc, (insertLoop t.strings.length t.nodes [] 0 0 none (split 47 f)).2.1 = some (lf, fc) →
        (txInsert t f s).2.firstCreated = fc) := txInsert_mode t f s
  rcases insertLoop_created_none t.strings.length (split 47 f) t.nodes [] 0 0 with ⟨h1, h2⟩ | ⟨news, lf, fc, h1, h2, h3, h4, h5⟩
  · rw [h1, hadd] at hact; exact absurd hact.1 (by simp)
  · have hfc := hact.2 lf fc h2
    rw [hfc'] at hfc
    subst hfc
    unfold ownedBelow
    rw [txInsert_nodes, h1, List.map_eq_nil_iff, List.filter_eq_nil_iff]
    intro e he hc
    simp only [Bool.and_eq_true, List.isPrefixOf_iff_prefix] at hc
    rcases List.mem_append.1 he with h6 | h6
    · rw [(h5 e h6).2.2] at hc; exact absurd hc.2 (by simp)
    · obtain ⟨post, hp⟩ := hc.1
      have : t.nodes.get e.1 ≠ none := AMap.get_ne_none_iff.2 (List.mem_map.2 ⟨e, h6, rfl⟩)
      exact closed_prefix h this fc' post hp.symm h4 h3

theorem aborted_spec (steps : List TxStep) : ∀ (t : Tree), Closed t.nodes →
    (aborted t steps).nodes = t.nodes ∧ (aborted t steps).cleaned = t.cleaned := by
  induction steps with
  | nil => intro t _; exact ⟨rfl, rfl⟩
  | cons st steps ih =>
    intro t h
    cases st with
    | insert f s =>
      have := ih (txInsert t f s).1 (txInsert_closed h f s)
      unfold aborted at this ⊢
      simp only [txSteps, rollback, List.reverse_cons, List.foldl_append, List.foldl_cons, List.foldl_nil] at this ⊢
      apply txInsert_rollback h
      · exact this.1
      · rw [this.2, txInsert_cleaned]
    | remove f =>
      have := ih t h
      unfold aborted at this ⊢
      simp only [txSteps, rollback] at this ⊢
      cases hr : txRemove t f with
      | none => simpa using this
      | some a =>
        have hm : a.mode = .remove := by
          unfold txRemove at hr
          split at hr
          · simp at hr
          · simp only [Option.some.injEq] at hr; rw [← hr]
        have hid : ∀ x, rollbackAction x a = x := by
          intro x; unfold rollbackAction; rw [hm]
        simpa [hid] using this

/-! ### Publish -/

/-- Matching as the table does it: like MQTT, except that `#` needs at least one level. -/
def TreeMatch : List Bytes → List Bytes → Prop
  | [], [] => True
  | [], _ :: _ => False
  | _ :: _, [] => False
  | f :: fs, t :: ts => (f = [35] ∧ fs = []) ∨ (f = [43] ∨ f = t) ∧ TreeMatch fs ts

instance : DecidableRel TreeMatch := fun a b => by
  induction a generalizing b with
  | nil => cases b <;> (unfold TreeMatch; infer_instance)
  | cons f fs ih =>
    cases b with
    | nil => unfold TreeMatch; infer_instance
    | cons t ts => unfold TreeMatch; have := ih ts; infer_instance

/-- No wildcard levels. -/
def NoWild (ts : List Bytes) : Prop := ∀ t ∈ ts, t ≠ [43] ∧ t ≠ [35]

theorem mem_filter_key {α : Type} (l : List (Path × α)) (f : Path) (h : ∀ e ∈ l, e.1 ≠ f) :
    l.filter (fun e => e.1 = f) = [] := by
  rw [List.filter_eq_nil_iff]; simpa using h

/-- The calls made for filter `f`: one if it is subscribed and matches, none otherwise. -/
theorem publishGo_spec {nodes : AMap Path Node} (h : Inv nodes) (ts : List Bytes) : ∀ (cur : Path), NoWild ts →
    ∃ calls, publishGo nodes cur ts = some calls ∧
      (∀ e ∈ calls, cur <+: e.1) ∧
      ∀ g, calls.filter (fun e => e.1 = cur ++ g) =
        if TreeMatch g ts then (subAt nodes (cur ++ g)).toList.map (fun s => (cur ++ g, s)) else [] := by
  induction ts with
  | nil =>
    intro cur _
    have hcase : publishGo nodes cur [] = some ((subAt nodes cur).toList.map (fun s => (cur, s))) := by
      unfold publishGo subAt
      cases hg : nodes.get cur with
      | none => rfl
      | some n =>
        obtain ⟨sub, a, b, c, d⟩ := n
        cases sub <;> rfl
    refine ⟨_, hcase, ?_, ?_⟩
    · intro e he
      simp only [List.mem_map] at he
      obtain ⟨s, _, rfl⟩ := he
      exact List.prefix_rfl
    · intro g
      cases g with
      | nil =>
        rw [if_pos (by trivial)]
        rw [List.append_nil, List.filter_eq_self]
        simp
      | cons x g =>
        rw [if_neg (by simp [TreeMatch])]
        apply mem_filter_key
        simp
  | cons t ts ih =>
    intro cur hw
    have hwt := hw t (by simp)
    have hws : NoWild ts := fun x hx => hw x (by simp [hx])
    obtain ⟨cp, hp1, hp2, hp3⟩ := ih (cur ++ [[43]]) hws
    obtain ⟨ce, he1, he2, he3⟩ := ih (cur ++ [t]) hws
    -- the '#' child is a subscription
    obtain ⟨cm, hm1, hm2⟩ : ∃ cm, hashCalls nodes cur = some cm ∧
        cm = (subAt nodes (cur ++ [[35]])).toList.map (fun s => (cur ++ [[35]], s)) := by
      unfold subAt hashCalls
      cases hg : nodes.get (cur ++ [[35]]) with
      | none => exact ⟨[], rfl, rfl⟩
      | some n =>
        cases hs : n.sub with
        | none =>
          have := h.live _ n hg hs
          rw [hasChild_iff] at this
          obtain ⟨l, hl⟩ := this
          exact absurd (h.hash cur l) hl
        | some s => exact ⟨[(cur ++ [[35]], s)], by simp [hs], by simp [hs]⟩
    obtain ⟨cp', hpp1, hpp2⟩ : ∃ cp', (if nodes.get (cur ++ [[43]]) = none then some []
        else publishGo nodes (cur ++ [[43]]) ts) = some cp' ∧
        cp' = if nodes.get (cur ++ [[43]]) = none then [] else cp := by
      cases hg : nodes.get (cur ++ [[43]]) with
      | none => exact ⟨[], rfl, rfl⟩
      | some n => exact ⟨cp, by simpa using hp1, by simp⟩
    obtain ⟨ce', hee1, hee2⟩ : ∃ ce', (if nodes.get (cur ++ [t]) = none then some []
        else publishGo nodes (cur ++ [t]) ts) = some ce' ∧
        ce' = if nodes.get (cur ++ [t]) = none then [] else ce := by
      cases hg : nodes.get (cur ++ [t]) with
      | none => exact ⟨[], rfl, rfl⟩
      | some n => exact ⟨ce, by simpa using he1, by simp⟩
    -- below a missing node nothing is subscribed
    have hnone : ∀ x g, nodes.get (cur ++ [x]) = none → subAt nodes (cur ++ [x] ++ g) = none := by
      intro x g hx
      unfold subAt
      cases hg : nodes.get (cur ++ [x] ++ g) with
      | none => rfl
      | some n =>
        exact absurd hx (closed_prefix h.closed (p := cur ++ [x] ++ g) (by rw [hg]; simp) (cur ++ [x]) g rfl (by simp))
    have hp3' : ∀ g, cp'.filter (fun e => e.1 = cur ++ [43] :: g) =
        if TreeMatch g ts then (subAt nodes (cur ++ [43] :: g)).toList.map (fun s => (cur ++ [43] :: g, s)) else [] := by
      intro g
      have e : cur ++ [43] :: g = cur ++ [[43]] ++ g := by simp
      rw [hpp2, e]
      split
      · next hn => rw [hnone _ g hn]; simp
      · exact hp3 g
    have he3' : ∀ g, ce'.filter (fun e => e.1 = cur ++ t :: g) =
        if TreeMatch g ts then (subAt nodes (cur ++ t :: g)).toList.map (fun s => (cur ++ t :: g, s)) else [] := by
      intro g
      have e : cur ++ t :: g = cur ++ [t] ++ g := by simp
      rw [hee2, e]
      split
      · next hn => rw [hnone _ g hn]; simp
      · exact he3 g
    have hpk : ∀ e ∈ cp', cur ++ [[43]] <+: e.1 := by
      intro e he; rw [hpp2] at he; split at he
      · simp at he
      · exact hp2 e he
    have hek : ∀ e ∈ ce', cur ++ [t] <+: e.1 := by
      intro e he; rw [hee2] at he; split at he
      · simp at he
      · exact he2 e he
    have hmk : ∀ e ∈ cm, e.1 = cur ++ [[35]] := by
      intro e he; rw [hm2] at he; simp only [List.mem_map] at he
      obtain ⟨s, _, rfl⟩ := he; rfl
    refine ⟨cm ++ cp' ++ ce', ?_, ?_, ?_⟩
    · rw [publishGo, hm1, hpp1, hee1]; rfl
    · intro e he
      simp only [List.mem_append] at he
      rcases he with (he | he) | he
      · rw [hmk e he]; exact List.prefix_append _ _
      · exact (List.prefix_append _ _).trans (hpk e he)
      · exact (List.prefix_append _ _).trans (hek e he)
    · intro g
      rw [List.filter_append, List.filter_append]
      have hpre : ∀ {x y : Bytes} {g q : Path}, cur ++ [x] <+: q → q = cur ++ y :: g → x = y := by
        rintro x y g q ⟨z, hz⟩ e
        rw [e] at hz
        simp at hz
        exact hz.1
      cases g with
      | nil =>
        rw [if_neg (by simp [TreeMatch]), List.append_nil]
        have n1 : ∀ e ∈ cm, e.1 ≠ cur := by intro e he; rw [hmk e he]; simp
        have n2 : ∀ e ∈ cp', e.1 ≠ cur := by
          intro e he eq; obtain ⟨z, hz⟩ := hpk e he; rw [eq] at hz; simp at hz
        have n3 : ∀ e ∈ ce', e.1 ≠ cur := by
          intro e he eq; obtain ⟨z, hz⟩ := hek e he; rw [eq] at hz; simp at hz
        rw [mem_filter_key _ _ n1, mem_filter_key _ _ n2, mem_filter_key _ _ n3]; rfl
      | cons x g =>
        have m1 : x ≠ [43] → cp'.filter (fun e => e.1 = cur ++ x :: g) = [] := fun hx =>
          mem_filter_key _ _ fun e he eq => hx (hpre (hpk e he) eq).symm
        have m2 : x ≠ t → ce'.filter (fun e => e.1 = cur ++ x :: g) = [] := fun hx =>
          mem_filter_key _ _ fun e he eq => hx (hpre (hek e he) eq).symm
        have m3 : ¬ (x = [35] ∧ g = []) → cm.filter (fun e => e.1 = cur ++ x :: g) = [] := fun hx =>
          mem_filter_key _ _ fun e he eq => by
            rw [hmk e he] at eq
            simp at eq
            exact hx ⟨eq.1.symm, eq.2⟩
        by_cases hx1 : x = [35]
        · subst hx1
          rw [m1 (by decide), m2 (fun e => hwt.2 e.symm)]
          cases g with
          | nil =>
            rw [if_pos (.inl ⟨rfl, rfl⟩), List.append_nil, List.append_nil, hm2, List.filter_eq_self]
            simp
          | cons y g =>
            rw [m3 (by simp), if_neg]
            · rfl
            · simp only [TreeMatch, reduceCtorEq, and_false, false_or, not_and]
              rintro (e | e)
              · exact absurd e (by decide)
              · exact absurd e.symm hwt.2
        · rw [m3 (fun e => hx1 e.1), List.nil_append]
          by_cases hx2 : x = [43]
          · subst hx2
            rw [m2 (fun e => hwt.1 e.symm), List.append_nil, hp3' g]
            simp [TreeMatch]
          · rw [m1 hx2, List.nil_append]
            by_cases hx3 : x = t
            · subst hx3
              rw [he3' g]
              simp [TreeMatch, hx1]
            · rw [m2 hx3, if_neg]
              simp [TreeMatch, hx1, hx2, hx3]

end Mqtt.TopicTree
