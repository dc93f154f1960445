import Verif.Lemmas.TopicTree

/-!
Which strings the nodes of the 3.1.1 subscription table refer to (C11).
-/
namespace Mqtt.TopicTree
open Mqtt.Spec

/-- Offset of what follows these levels in a topic string. -/
def offOf : Path → Nat
  | [] => 0
  | l :: ls => l.length + 1 + offOf ls

theorem offOf_append (a b : Path) : offOf (a ++ b) = offOf a + offOf b := by
  induction a with
  | nil => simp [offOf]
  | cons x a ih => simp [offOf, ih]; omega

/-- The string behind an index. -/
def strAt (t : Tree) (s : Nat) : Bytes := t.strings.getD s []

/-- Reading a level back from a string. -/
theorem read_level (pre : Path) : ∀ (s l : Bytes), pre ++ [l] <+: split 47 s → (s.drop (offOf pre)).take l.length = l := by
  induction pre with
  | nil =>
    intro s l h
    obtain ⟨post, hp⟩ := h
    have hs := (split_levels s).2.2
    rw [← hp] at hs
    cases post with
    | nil => rw [hs]; simp [offOf]
    | cons y ys => rw [hs]; simp [offOf]
  | cons x pre ih =>
    intro s l h
    obtain ⟨post, hp⟩ := h
    obtain ⟨hne, hsl, hs⟩ := split_levels s
    rw [← hp] at hs hsl
    have hne2 : pre ++ [l] ++ post ≠ [] := by simp
    obtain ⟨y, ys, hy⟩ := List.exists_cons_of_ne_nil hne2
    have e : x :: pre ++ [l] ++ post = x :: y :: ys := by simpa using hy
    rw [e] at hs hsl
    have hs' : s = x ++ 47 :: ((y :: ys).intersperse [47]).flatten := by
      rw [hs]; simp [List.intersperse]
    have hlev : Levels ((y :: ys).intersperse [47]).flatten (y :: ys) :=
      ⟨by simp, fun z hz => hsl z (by simp [hz]), rfl⟩
    have := ih ((y :: ys).intersperse [47]).flatten l ⟨post, by rw [split_of_levels hlev, hy]⟩
    rw [hs', offOf]
    have e2 : (x ++ 47 :: ((y :: ys).intersperse [47]).flatten).drop (x.length + 1 + offOf pre) =
        (((y :: ys).intersperse [47]).flatten).drop (offOf pre) := by
      rw [show x ++ 47 :: ((y :: ys).intersperse [47]).flatten = (x ++ [47]) ++ ((y :: ys).intersperse [47]).flatten by simp,
        show x.length + 1 + offOf pre = (x ++ [47]).length + offOf pre by simp, List.drop_append]
      simp
    rw [e2]; exact this

/-- The strings invariant; `pend` are the insertions not committed yet, with their strings. -/
structure SInv (t : Tree) (pend : List (Path × Nat)) : Prop where
  ref : ∀ p n, t.nodes.get p = some n → n.topicStr = n.filterStr ∧ n.filterStr < t.strings.length ∧
    n.filterStr ∉ t.freed ∧ n.topicOff = offOf p.dropLast ∧ p <+: split 47 (strAt t n.filterStr)
  owned : ∀ p n, t.nodes.get p = some n →
    (∃ q m, p <+: q ∧ t.nodes.get q = some m ∧ m.owns = true ∧ m.filterStr = n.filterStr) ∨
    (∃ q, p <+: q ∧ (q, n.filterStr) ∈ pend)
  path : ∀ p n, t.nodes.get p = some n → n.owns = true → split 47 (strAt t n.filterStr) = p
  ownsub : ∀ p n, t.nodes.get p = some n → (n.owns = true ↔ n.sub ≠ none)
  pendOk : ∀ q s, (q, s) ∈ pend → (∃ n, t.nodes.get q = some n ∧ n.owns = false) ∧ s < t.strings.length ∧
    s ∉ t.freed ∧ split 47 (strAt t s) = q
  pendNodup : (pend.map (·.1)).Nodup
  freedLt : ∀ s ∈ t.freed, s < t.strings.length
  freedNodup : t.freed.Nodup

theorem sinv_init : SInv Tree.init [] := by
  constructor <;> simp [Tree.init]

/-! ### Insert -/

theorem newNode_off (str : Nat) (ls : List Bytes) : ∀ (cur : Path) (off : Nat) (q : Path) (n : Node),
    newNode str cur off ls q = some n → ∃ pre l, q = cur ++ pre ++ [l] ∧ n.topicOff = off + offOf pre := by
  induction ls with
  | nil => intro cur off q n h; simp [newNode] at h
  | cons l ls ih =>
    intro cur off q n h
    rw [newNode] at h
    split at h
    · next hq =>
      simp only [Option.some.injEq] at h
      subst h
      exact ⟨[], l, by simp [hq], by simp [offOf]⟩
    · obtain ⟨pre, m, h1, h2⟩ := ih _ _ _ _ h
      exact ⟨l :: pre, m, by simp [h1], by rw [h2, offOf]; omega⟩

theorem insertLoop_last (str : Nat) (ls : List Bytes) : ∀ (nodes : AMap Path Node) (cur : Path) (off lo : Nat)
    (c : Option (Path × Path)), ls ≠ [] → (insertLoop str nodes cur off lo c ls).2.2 = off + offOf ls.dropLast := by
  induction ls with
  | nil => intro _ _ _ _ _ h; exact absurd rfl h
  | cons l ls ih =>
    intro nodes cur off lo c _
    rw [insertLoop]
    cases ls with
    | nil => split <;> simp [insertLoop, offOf]
    | cons m ls =>
      have e : (l :: m :: ls).dropLast = l :: (m :: ls).dropLast := rfl
      split <;> (rw [ih _ _ _ _ _ (by simp), e, offOf]; omega)

/-- What commit will do with the action. -/
def ActOk (nodes : AMap Path Node) (a : Action) : Prop :=
  a.mode ≠ .remove ∧ a.sub ≠ none ∧
  ((a.topicFilter = none ∧ a.topic = none ∧ ownsAt nodes a.node = true) ∨
   ∃ s, a.topicFilter = some s ∧ a.topic = some (s, offOf a.node.dropLast))

/-- Strings waiting for commit. -/
def pendOf (as : List Action) : List (Path × Nat) := as.filterMap fun a => a.topicFilter.map (a.node, ·)

theorem ownsAt_iff {nodes : AMap Path Node} {p : Path} : ownsAt nodes p = true ↔ ∃ n, nodes.get p = some n ∧ n.owns = true := by
  unfold ownsAt
  cases nodes.get p <;> simp

theorem txInsert_parts (t : Tree) (f : Bytes) (s : Sub) :
    (txInsert t f s).1.strings = t.strings ++ [f] ∧
    (if ownsAt (txInsert t f s).1.nodes (split 47 f) then
      (txInsert t f s).1.freed = t.strings.length :: t.freed ∧ (txInsert t f s).2.topicFilter = none ∧
      (txInsert t f s).2.topic = none
    else (txInsert t f s).1.freed = t.freed ∧ (txInsert t f s).2.topicFilter = some t.strings.length ∧
      (txInsert t f s).2.topic = some (t.strings.length, offOf (split 47 f).dropLast)) := by
  rw [txInsert_nodes]
  unfold txInsert
  simp only
  split
  · refine ⟨rfl, rfl, ?_⟩
    split <;> exact ⟨rfl, rfl⟩
  · refine ⟨rfl, rfl, rfl, ?_⟩
    rw [insertLoop_last _ _ _ _ _ _ _ (split_ne_nil _ _), Nat.zero_add]

theorem strAt_append {t u : Tree} {extra : List Bytes} (h : u.strings = t.strings ++ extra) {s : Nat}
    (hs : s < t.strings.length) : strAt u s = strAt t s := by
  unfold strAt
  rw [h, List.getD_eq_getElem?_getD, List.getD_eq_getElem?_getD, List.getElem?_append_left hs]

theorem sinv_txInsert {t : Tree} {pend : List (Path × Nat)} (h : SInv t pend) (hcl : Closed t.nodes) (f : Bytes) (s : Sub)
    (hf : split 47 f ∉ pend.map (·.1)) :
    SInv (txInsert t f s).1 (pend ++ pendOf [(txInsert t f s).2]) ∧ ActOk (txInsert t f s).1.nodes (txInsert t f s).2 := by
  obtain ⟨hs, hp⟩ := txInsert_parts t f s
  obtain ⟨a1, a2, a3⟩ := txInsert_action t f s
  have hget := txInsert_get t f s
  have hnodeT : ∀ q n, (txInsert t f s).1.nodes.get q = some n → t.nodes.get q = some n ∨
      (t.nodes.get q = none ∧ newNode t.strings.length [] 0 (split 47 f) q = some n) := by
    intro q n hq
    rw [hget] at hq
    cases hg : t.nodes.get q with
    | some m => rw [hg] at hq; exact .inl hq
    | none => rw [hg] at hq; exact .inr ⟨rfl, hq⟩
  have hlevel : (txInsert t f s).1.nodes.get (split 47 f) ≠ none :=
    (txInsert_ne_none t f s _).2 (.inr ⟨split_ne_nil _ _, List.prefix_rfl⟩)
  have hstr : strAt (txInsert t f s).1 t.strings.length = f := by
    unfold strAt; rw [hs]; simp
  have hlen : (txInsert t f s).1.strings.length = t.strings.length + 1 := by rw [hs]; simp
  have hfreed : ∀ x, x < t.strings.length → x ∉ t.freed → x ∉ (txInsert t f s).1.freed := by
    intro x hx hn
    split at hp
    · rw [hp.1]; simp; exact ⟨by omega, hn⟩
    · rw [hp.1]; exact hn
  have hsplit : ∀ x, x < t.strings.length → split 47 (strAt (txInsert t f s).1 x) = split 47 (strAt t x) := by
    intro x hx; rw [strAt_append hs hx]
  -- a path that does not own leaves its own string pending, so an owner means nothing was created
  have hcreated : ∀ q n, t.nodes.get q = none → newNode t.strings.length [] 0 (split 47 f) q = some n →
      ownsAt (txInsert t f s).1.nodes (split 47 f) = false := by
    intro q n hg hn
    cases ho : ownsAt (txInsert t f s).1.nodes (split 47 f) with
    | false => rfl
    | true =>
      obtain ⟨m, hm, hmo⟩ := ownsAt_iff.1 ho
      rcases hnodeT _ _ hm with hm | ⟨_, hm⟩
      · have hq := (newNode_iff t.strings.length 0 (split 47 f) q).1 (by rw [hn]; simp)
        obtain ⟨post, hpost⟩ := hq.2
        exact absurd hg (closed_prefix hcl (by rw [hm]; simp) q post hpost.symm hq.1)
      · rw [(newNode_some _ _ _ _ _ _ hm).2.2.1] at hmo; cases hmo
  have hpend : pendOf [(txInsert t f s).2] =
      if ownsAt (txInsert t f s).1.nodes (split 47 f) then [] else [(split 47 f, t.strings.length)] := by
    split at hp
    · next ho => rw [if_pos ho]; simp [pendOf, hp.2.1]
    · next ho => rw [if_neg ho]; simp [pendOf, hp.2.1, a1]
  have hstrFree : ownsAt (txInsert t f s).1.nodes (split 47 f) = false →
      t.strings.length ∉ (txInsert t f s).1.freed := by
    intro ho
    rw [ho] at hp
    simp only [Bool.false_eq_true, if_false] at hp
    rw [hp.1]
    intro hm
    have := h.freedLt _ hm
    omega
  have hmono : ∀ q n, t.nodes.get q = some n → (txInsert t f s).1.nodes.get q = some n :=
    fun q n hq => txInsert_get_some hq
  refine ⟨?_, ?_⟩
  · constructor
    · intro p n hpn
      rcases hnodeT p n hpn with hg | ⟨hg, hn⟩
      · obtain ⟨r1, r2, r3, r4, r5⟩ := h.ref p n hg
        exact ⟨r1, by omega, hfreed _ r2 r3, r4, by rw [hsplit _ r2]; exact r5⟩
      · obtain ⟨⟨pre, l, post, e1, e2⟩, e3, e4, e5, e6⟩ := newNode_some _ _ _ _ _ _ hn
        obtain ⟨pre', l', e7, e8⟩ := newNode_off _ _ _ _ _ _ hn
        rw [e5, e6, hstr]
        refine ⟨rfl, by omega, hstrFree (hcreated p n hg hn), ?_, ?_⟩
        · rw [e8, e7]; simp
        · rw [e2, e1]; exact ⟨post, by simp⟩
    · intro p n hpn
      rcases hnodeT p n hpn with hg | ⟨hg, hn⟩
      · rcases h.owned p n hg with ⟨q, m, e1, e2, e3⟩ | ⟨q, e1, e2⟩
        · exact .inl ⟨q, m, e1, hmono q m e2, e3⟩
        · exact .inr ⟨q, e1, List.mem_append_left _ e2⟩
      · right
        refine ⟨split 47 f, ?_, ?_⟩
        · exact ((newNode_iff t.strings.length 0 (split 47 f) p).1 (by rw [hn]; simp)).2
        · rw [hpend, hcreated p n hg hn, (newNode_some _ _ _ _ _ _ hn).2.2.2.1]; simp
    · intro p n hpn ho
      rcases hnodeT p n hpn with hg | ⟨hg, hn⟩
      · rw [hsplit _ (h.ref p n hg).2.1]; exact h.path p n hg ho
      · rw [(newNode_some _ _ _ _ _ _ hn).2.2.1] at ho; cases ho
    · intro p n hpn
      rcases hnodeT p n hpn with hg | ⟨hg, hn⟩
      · exact h.ownsub p n hg
      · obtain ⟨_, e3, e4, _⟩ := newNode_some _ _ _ _ _ _ hn
        simp [e3, e4]
    · intro q x hq
      rcases List.mem_append.1 hq with hq | hq
      · obtain ⟨⟨n, e1, e2⟩, e3, e4, e5⟩ := h.pendOk q x hq
        exact ⟨⟨n, hmono _ _ e1, e2⟩, by omega, hfreed _ e3 e4, by rw [hsplit _ e3]; exact e5⟩
      · rw [hpend] at hq
        split at hq
        · simp at hq
        · next ho =>
          simp only [List.mem_cons, Prod.mk.injEq, List.not_mem_nil, or_false] at hq
          obtain ⟨rfl, rfl⟩ := hq
          obtain ⟨n, hn⟩ := Option.ne_none_iff_exists'.1 hlevel
          refine ⟨⟨n, hn, ?_⟩, by omega, hstrFree (by simpa using ho), by rw [hstr]⟩
          cases hno : n.owns with
          | false => rfl
          | true => exact absurd (ownsAt_iff.2 ⟨n, hn, hno⟩) ho
    · rw [List.map_append, List.nodup_append, hpend]
      refine ⟨h.pendNodup, by split <;> simp, ?_⟩
      intro a ha b hb
      split at hb
      · simp at hb
      · simp only [List.map_cons, List.map_nil, List.mem_cons, List.not_mem_nil, or_false] at hb
        subst hb
        rintro rfl
        exact hf ha
    · intro x hx
      split at hp
      · rw [hp.1] at hx
        rcases List.mem_cons.1 hx with rfl | hx
        · omega
        · have := h.freedLt x hx; omega
      · rw [hp.1] at hx; have := h.freedLt x hx; omega
    · split at hp
      · rw [hp.1]
        refine List.nodup_cons.2 ⟨?_, h.freedNodup⟩
        intro hm
        have := h.freedLt _ hm
        omega
      · rw [hp.1]; exact h.freedNodup
  · refine ⟨a3, by rw [a2]; simp, ?_⟩
    split at hp
    · next ho => exact .inl ⟨hp.2.1, hp.2.2, by rw [a1]; exact ho⟩
    · exact .inr ⟨_, hp.2.1, by rw [a1]; exact hp.2.2⟩

theorem ActOk.mono {a b : AMap Path Node} {act : Action} (h : ActOk a act)
    (hm : ∀ q, ownsAt a q = true → ownsAt b q = true) : ActOk b act := by
  obtain ⟨h1, h2, h3⟩ := h
  refine ⟨h1, h2, ?_⟩
  rcases h3 with ⟨x, y, z⟩ | h3
  · exact .inl ⟨x, y, hm _ z⟩
  · exact .inr h3

theorem ownsAt_txInsert {t : Tree} {f : Bytes} {s : Sub} (q : Path) (h : ownsAt t.nodes q = true) :
    ownsAt (txInsert t f s).1.nodes q = true := by
  obtain ⟨n, h1, h2⟩ := ownsAt_iff.1 h
  exact ownsAt_iff.2 ⟨n, txInsert_get_some h1, h2⟩

theorem ownsAt_txInserts (fs : List (Bytes × Sub)) : ∀ (t : Tree) (q : Path), ownsAt t.nodes q = true →
    ownsAt (txInserts t fs).1.nodes q = true := by
  induction fs with
  | nil => intro t q h; exact h
  | cons e fs ih => intro t q h; exact ih _ q (ownsAt_txInsert q h)

theorem pendOf_cons (a : Action) (as : List Action) : pendOf (a :: as) = pendOf [a] ++ pendOf as := by
  unfold pendOf
  rw [List.filterMap_cons, List.filterMap_cons]
  cases a.topicFilter <;> simp

theorem sinv_txInserts (fs : List (Bytes × Sub)) : ∀ (t : Tree) (pend : List (Path × Nat)), SInv t pend → Closed t.nodes →
    (fs.map (·.1)).Nodup → (∀ e ∈ fs, split 47 e.1 ∉ pend.map (·.1)) →
    SInv (txInserts t fs).1 (pend ++ pendOf (txInserts t fs).2) ∧
    ∀ a ∈ (txInserts t fs).2, ActOk (txInserts t fs).1.nodes a := by
  induction fs with
  | nil => intro t pend h _ _ _; simpa [txInserts, pendOf] using h
  | cons e fs ih =>
    intro t pend h hcl hnd hp
    obtain ⟨h1, h2⟩ := sinv_txInsert h hcl e.1 e.2 (hp e (by simp))
    rw [List.map_cons, List.nodup_cons] at hnd
    have := ih (txInsert t e.1 e.2).1 _ h1 (txInsert_closed hcl e.1 e.2) hnd.2 ?_
    · rw [List.append_assoc, ← pendOf_cons] at this
      refine ⟨this.1, ?_⟩
      intro a ha
      rcases List.mem_cons.1 ha with rfl | ha
      · exact h2.mono (ownsAt_txInserts fs _)
      · exact this.2 a ha
    · intro x hx hm
      rw [List.map_append, List.mem_append] at hm
      rcases hm with hm | hm
      · exact hp x (by simp [hx]) hm
      · have : (pendOf [(txInsert t e.1 e.2).2]).map (·.1) = [] ∨
            (pendOf [(txInsert t e.1 e.2).2]).map (·.1) = [split 47 e.1] := by
          unfold pendOf
          rw [List.filterMap_cons, List.filterMap_nil]
          cases (txInsert t e.1 e.2).2.topicFilter with
          | none => left; rfl
          | some y => right; simp [(txInsert_action t e.1 e.2).1]
        rcases this with e3 | e3
        · rw [e3] at hm; simp at hm
        · rw [e3] at hm
          simp only [List.mem_cons, List.not_mem_nil, or_false] at hm
          apply hnd.1
          have : x.1 = e.1 := by
            have a := (split_levels x.1).2.2
            rw [hm] at a
            exact a.trans (split_levels e.1).2.2.symm
          rw [← this]
          exact List.mem_map.2 ⟨x, hx, rfl⟩

/-! ### Commit of insertions -/

theorem sinv_commitAdd {t : Tree} {a : Action} {as : List Action} (h : SInv t (pendOf (a :: as))) (ha : ActOk t.nodes a) :
    SInv (commitAdd t a) (pendOf as) ∧ ∀ q, ownsAt t.nodes q = true → ownsAt (commitAdd t a).nodes q = true := by
  obtain ⟨_, hsub, hcase⟩ := ha
  rcases hcase with ⟨hf, ht, ho⟩ | ⟨x, hf, ht⟩
  · obtain ⟨n, hn, hno⟩ := ownsAt_iff.1 ho
    have hc : commitAdd t a = { t with nodes := t.nodes.set a.node { n with sub := a.sub }, cleaned := t.cleaned ++ cleanupOf n.sub } := by
      unfold commitAdd; simp only [hn, hf, ht]
    have hpe : pendOf (a :: as) = pendOf as := by rw [pendOf_cons]; simp [pendOf, hf]
    rw [hpe] at h
    have hget : ∀ q m, (commitAdd t a).nodes.get q = some m → ∃ m', t.nodes.get q = some m' ∧ m.topicStr = m'.topicStr ∧
        m.filterStr = m'.filterStr ∧ m.topicOff = m'.topicOff ∧ m.owns = m'.owns ∧ (m.owns = true ↔ m.sub ≠ none) := by
      intro q m hq
      rw [hc] at hq
      simp only [AMap.get_set] at hq
      split at hq
      · next e =>
        simp only [Option.some.injEq] at hq
        subst e; subst hq
        exact ⟨n, hn, rfl, rfl, rfl, rfl, by simp [hno, hsub]⟩
      · exact ⟨m, hq, rfl, rfl, rfl, rfl, h.ownsub q m hq⟩
    have hput : ∀ q m, t.nodes.get q = some m → ∃ m', (commitAdd t a).nodes.get q = some m' ∧ m'.filterStr = m.filterStr ∧
        m'.owns = m.owns := by
      intro q m hq
      rw [hc]
      simp only [AMap.get_set]
      split
      · next e => subst e; rw [hn] at hq; simp only [Option.some.injEq] at hq; subst hq; exact ⟨_, rfl, rfl, rfl⟩
      · exact ⟨m, hq, rfl, rfl⟩
    have hst : (commitAdd t a).strings = t.strings := by rw [hc]
    have hfr : (commitAdd t a).freed = t.freed := by rw [hc]
    have hsa : ∀ y, strAt (commitAdd t a) y = strAt t y := by intro y; unfold strAt; rw [hst]
    refine ⟨?_, ?_⟩
    · constructor
      · intro p m hm
        obtain ⟨m', g, e1, e2, e3, e4, e5⟩ := hget p m hm
        rw [e1, e2, e3, hst, hfr, hsa]
        exact h.ref p m' g
      · intro p m hm
        obtain ⟨m', g, e1, e2, e3, e4, e5⟩ := hget p m hm
        rw [e2]
        rcases h.owned p m' g with ⟨q, o, o1, o2, o3, o4⟩ | o
        · obtain ⟨o', p1, p2, p3⟩ := hput q o o2
          exact .inl ⟨q, o', o1, p1, by rw [p3, o3], by rw [p2, o4]⟩
        · exact .inr o
      · intro p m hm hmo
        obtain ⟨m', g, e1, e2, e3, e4, e5⟩ := hget p m hm
        rw [e2, hsa]
        exact h.path p m' g (e4 ▸ hmo)
      · intro p m hm
        obtain ⟨m', g, e1, e2, e3, e4, e5⟩ := hget p m hm
        exact e5
      · intro q y hq
        obtain ⟨⟨m, o1, o2⟩, o3, o4, o5⟩ := h.pendOk q y hq
        obtain ⟨m', p1, p2, p3⟩ := hput q m o1
        exact ⟨⟨m', p1, by rw [p3, o2]⟩, by rw [hst]; exact o3, by rw [hfr]; exact o4, by rw [hsa]; exact o5⟩
      · exact h.pendNodup
      · rw [hfr, hst]; exact h.freedLt
      · rw [hfr]; exact h.freedNodup
    · intro q hq
      obtain ⟨m, g, g2⟩ := ownsAt_iff.1 hq
      obtain ⟨m', p1, p2, p3⟩ := hput q m g
      exact ownsAt_iff.2 ⟨m', p1, by rw [p3, g2]⟩
  · have hpe : pendOf (a :: as) = (a.node, x) :: pendOf as := by rw [pendOf_cons]; simp [pendOf, hf]
    rw [hpe] at h
    obtain ⟨⟨n, hn, hno⟩, hx1, hx2, hx3⟩ := h.pendOk a.node x (by simp)
    have hc : commitAdd t a = { t with nodes := t.nodes.set a.node { n with sub := a.sub, topicStr := x, topicOff := offOf a.node.dropLast, filterStr := x, owns := true }, cleaned := t.cleaned ++ cleanupOf n.sub } := by
      unfold commitAdd; simp only [hn, hf, ht, hno, Bool.false_eq_true, if_false]
    have hst : (commitAdd t a).strings = t.strings := by rw [hc]
    have hfr : (commitAdd t a).freed = t.freed := by rw [hc]
    have hsa : ∀ y, strAt (commitAdd t a) y = strAt t y := by intro y; unfold strAt; rw [hst]
    have hget : ∀ q, (commitAdd t a).nodes.get q = if q = a.node then some { n with sub := a.sub, topicStr := x, topicOff := offOf a.node.dropLast, filterStr := x, owns := true } else t.nodes.get q := by
      intro q; rw [hc]; exact AMap.get_set _ _ _ _
    have hown : ∀ q m, t.nodes.get q = some m → m.owns = true → (commitAdd t a).nodes.get q = some m := by
      intro q m g g2
      rw [hget, if_neg]
      · exact g
      · rintro rfl; rw [hn] at g; simp only [Option.some.injEq] at g; subst g; rw [hno] at g2; cases g2
    have hself : (commitAdd t a).nodes.get a.node = some { n with sub := a.sub, topicStr := x, topicOff := offOf a.node.dropLast, filterStr := x, owns := true } := by
      rw [hget, if_pos rfl]
    have hnd := h.pendNodup
    rw [List.map_cons, List.nodup_cons] at hnd
    refine ⟨?_, ?_⟩
    · constructor
      · intro p m hm
        rw [hget] at hm
        split at hm
        · next e =>
          simp only [Option.some.injEq] at hm
          subst e; subst hm
          refine ⟨rfl, ?_, ?_, rfl, ?_⟩
          · rw [hst]; exact hx1
          · rw [hfr]; exact hx2
          · rw [hsa, hx3]; exact List.prefix_rfl
        · rw [hst, hfr, hsa]; exact h.ref p m hm
      · intro p m hm
        rw [hget] at hm
        split at hm
        · next e =>
          simp only [Option.some.injEq] at hm
          subst e; subst hm
          exact .inl ⟨a.node, _, List.prefix_rfl, hself, rfl, rfl⟩
        · rcases h.owned p m hm with ⟨q, o, o1, o2, o3, o4⟩ | ⟨q, o1, o2⟩
          · exact .inl ⟨q, o, o1, hown q o o2 o3, o3, o4⟩
          · rcases List.mem_cons.1 o2 with e | e
            · simp only [Prod.mk.injEq] at e
              rw [e.1] at o1
              exact .inl ⟨a.node, _, o1, hself, rfl, e.2.symm⟩
            · exact .inr ⟨q, o1, e⟩
      · intro p m hm hmo
        rw [hget] at hm
        rw [hsa]
        split at hm
        · next e =>
          simp only [Option.some.injEq] at hm
          subst e; subst hm
          exact hx3
        · exact h.path p m hm hmo
      · intro p m hm
        rw [hget] at hm
        split at hm
        · simp only [Option.some.injEq] at hm; subst hm; simp [hsub]
        · exact h.ownsub p m hm
      · intro q y hq
        obtain ⟨⟨m, o1, o2⟩, o3, o4, o5⟩ := h.pendOk q y (List.mem_cons_of_mem _ hq)
        refine ⟨⟨m, ?_, o2⟩, by rw [hst]; exact o3, by rw [hfr]; exact o4, by rw [hsa]; exact o5⟩
        rw [hget, if_neg]
        · exact o1
        · rintro rfl; exact hnd.1 (List.mem_map.2 ⟨_, hq, rfl⟩)
      · exact hnd.2
      · rw [hfr, hst]; exact h.freedLt
      · rw [hfr]; exact h.freedNodup
    · intro q hq
      obtain ⟨m, g, g2⟩ := ownsAt_iff.1 hq
      exact ownsAt_iff.2 ⟨m, hown q m g g2, g2⟩

theorem sinv_commit (pick : List Nat → Nat) (as : List Action) : ∀ (t : Tree), SInv t (pendOf as) →
    (∀ a ∈ as, ActOk t.nodes a) → SInv (commit pick t as) [] := by
  induction as with
  | nil => intro t h _; exact h
  | cons a as ih =>
    intro t h ha
    obtain ⟨h1, h2⟩ := sinv_commitAdd h (ha a (by simp))
    have e : commitAction pick t a = commitAdd t a := by
      unfold commitAction
      have := (ha a (by simp)).1
      cases hm : a.mode <;> simp_all
    show SInv (as.foldl (commitAction pick) (commitAction pick t a)) []
    rw [e]
    exact ih _ h1 fun b hb => (ha b (by simp [hb])).mono h2

theorem sinv_subscribe (pick : List Nat → Nat) {t : Tree} (h : SInv t []) (hcl : Closed t.nodes) (fs : List (Bytes × Sub))
    (hnd : (fs.map (·.1)).Nodup) : SInv (subscribe pick t fs) [] := by
  obtain ⟨h1, h2⟩ := sinv_txInserts fs t [] h hcl hnd (by simp)
  exact sinv_commit pick _ _ h1 h2

/-! ### Roll back -/

theorem aborted_strings (steps : List TxStep) : ∀ (t : Tree), Closed t.nodes →
    (aborted t steps).nodes = t.nodes ∧
    ∃ extra F, (aborted t steps).strings = t.strings ++ extra ∧ (aborted t steps).freed.Perm (F ++ t.freed) ∧ F.Nodup ∧
      ∀ x ∈ F, t.strings.length ≤ x ∧ x < t.strings.length + extra.length := by
  induction steps with
  | nil => intro t _; exact ⟨rfl, [], [], by simp [aborted, txSteps, rollback], .refl _, by simp, by simp⟩
  | cons st steps ih =>
    intro t h
    refine ⟨(aborted_spec _ t h).1, ?_⟩
    cases st with
    | insert f s =>
      obtain ⟨e0, extra, F, e1, e2, e3, e4⟩ := ih (txInsert t f s).1 (txInsert_closed h f s)
      have hab : aborted t (.insert f s :: steps) = rollbackAction (aborted (txInsert t f s).1 steps) (txInsert t f s).2 := by
        simp [aborted, txSteps, rollback, List.reverse_cons, List.foldl_append]
      obtain ⟨hs, hp⟩ := txInsert_parts t f s
      have hlen : (txInsert t f s).1.strings.length = t.strings.length + 1 := by rw [hs]; simp
      have hstr : ∀ x : Tree, (rollbackAction x (txInsert t f s).2).strings = x.strings := by
        intro x; unfold rollbackAction; split <;> rfl
      -- nothing below the first created node owns its string
      have hbelow : ∀ fc, (txInsert t f s).2.mode = .add → (txInsert t f s).2.firstCreated = fc →
          ownedBelow (txInsert t f s).1.nodes fc = [] := txInsert_ownedBelow h f s
      rw [hab, hstr, e1, hs]
      have hF' : t.strings.length ∉ F := fun hx => by have := (e4 _ hx).1; omega
      by_cases ho : ownsAt (txInsert t f s).1.nodes (split 47 f) = true
      · rw [if_pos ho] at hp
        refine ⟨[f] ++ extra, F ++ [t.strings.length], by simp, ?_, ?_, ?_⟩
        · have : (rollbackAction (aborted (txInsert t f s).1 steps) (txInsert t f s).2).freed =
              (aborted (txInsert t f s).1 steps).freed := by
            unfold rollbackAction
            cases hm : (txInsert t f s).2.mode with
            | add => simp only [hp.2.1, e0]; rw [hbelow _ hm rfl]; rfl
            | update => rfl
            | remove => rfl
          rw [this]
          refine e2.trans ?_
          rw [hp.1, List.append_assoc]; exact .refl _
        · rw [List.nodup_append]
          refine ⟨e3, by simp, ?_⟩
          intro a ha b hb
          simp only [List.mem_cons, List.not_mem_nil, or_false] at hb
          subst hb
          rintro rfl; exact hF' ha
        · intro x hx
          simp only [List.mem_append, List.mem_cons, List.not_mem_nil, or_false] at hx
          simp only [List.length_append, List.length_cons, List.length_nil]
          rcases hx with hx | rfl
          · have := e4 x hx; omega
          · omega
      · rw [if_neg ho] at hp
        by_cases hm : (txInsert t f s).2.mode = .add
        · refine ⟨[f] ++ extra, t.strings.length :: F, by simp, ?_, ?_, ?_⟩
          · have : (rollbackAction (aborted (txInsert t f s).1 steps) (txInsert t f s).2).freed =
                t.strings.length :: (aborted (txInsert t f s).1 steps).freed := by
              unfold rollbackAction
              simp only [hm, hp.2.1, e0]; rw [hbelow _ hm rfl]; rfl
            rw [this]
            refine (e2.cons _).trans ?_
            rw [hp.1]; exact .refl _
          · exact List.nodup_cons.2 ⟨hF', e3⟩
          · intro x hx
            simp only [List.mem_cons] at hx
            simp only [List.length_append, List.length_cons, List.length_nil]
            rcases hx with rfl | hx
            · omega
            · have := e4 x hx; omega
        · refine ⟨[f] ++ extra, F, by simp, ?_, e3, ?_⟩
          · have : (rollbackAction (aborted (txInsert t f s).1 steps) (txInsert t f s).2).freed =
                (aborted (txInsert t f s).1 steps).freed := by
              unfold rollbackAction
              cases hm2 : (txInsert t f s).2.mode with
              | add => exact absurd hm2 hm
              | update => rfl
              | remove => rfl
            rw [this]
            rw [hp.1] at e2; exact e2
          · intro x hx
            simp only [List.length_append, List.length_cons, List.length_nil]
            have := e4 x hx; omega
    | remove f =>
      have hab : aborted t (.remove f :: steps) = aborted t steps := by
        unfold aborted
        simp only [txSteps, rollback]
        cases hr : txRemove t f with
        | none => simp
        | some a =>
          have hm : a.mode = .remove := by
            unfold txRemove at hr
            split at hr
            · simp at hr
            · simp only [Option.some.injEq] at hr; rw [← hr]
          have hid : ∀ x, rollbackAction x a = x := by
            intro x; unfold rollbackAction; rw [hm]
          simp [hid]
      rw [hab]
      exact (ih t h).2

theorem sinv_aborted {t : Tree} (h : SInv t []) (hcl : Closed t.nodes) (steps : List TxStep) : SInv (aborted t steps) [] := by
  obtain ⟨hn, extra, F, h1, h2, h3, h4⟩ := aborted_strings steps t hcl
  have hsa : ∀ y, y < t.strings.length → strAt (aborted t steps) y = strAt t y := fun y hy => strAt_append h1 hy
  constructor
  · intro p n hp
    rw [hn] at hp
    obtain ⟨r1, r2, r3, r4, r5⟩ := h.ref p n hp
    refine ⟨r1, by rw [h1, List.length_append]; omega, ?_, r4, by rw [hsa _ r2]; exact r5⟩
    rw [h2.mem_iff, List.mem_append]
    rintro (hx | hx)
    · have := (h4 _ hx).1; omega
    · exact r3 hx
  · intro p n hp
    rw [hn] at hp ⊢
    exact h.owned p n hp
  · intro p n hp ho
    rw [hn] at hp
    rw [hsa _ (h.ref p n hp).2.1]
    exact h.path p n hp ho
  · intro p n hp
    rw [hn] at hp
    exact h.ownsub p n hp
  · intro q x hq; simp at hq
  · simp
  · intro x hx
    rw [h2.mem_iff, List.mem_append] at hx
    rw [h1, List.length_append]
    rcases hx with hx | hx
    · exact (h4 x hx).2
    · have := h.freedLt x hx; omega
  · rw [h2.nodup_iff, List.nodup_append]
    refine ⟨h3, h.freedNodup, ?_⟩
    intro a ha b hb
    rintro rfl
    have := (h4 a ha).1
    have := h.freedLt a hb
    omega

/-! ### Removal of a filter with nothing below it -/

theorem pruneLoop_freed (p : Path) (last : Nat) : ∀ (i : Nat) (nodes : AMap Path Node) (freed : List Nat), i ≤ p.length →
    (∀ j n, j ≠ last → j ≤ i → nodes.get (p.take j) = some n → n.sub = none → n.owns = false) →
    (pruneLoop p last nodes freed i).2.1 = freed := by
  intro i
  induction i with
  | zero => intro nodes freed _ _; rfl
  | succ i ih =>
    intro nodes freed hi h
    rw [pruneLoop]
    cases hg : nodes.get (p.take (i + 1)) with
    | none => rfl
    | some n =>
      simp only
      split
      · next hc =>
        rw [ih _ _ (by omega) ?_]
        · split
          · next h2 =>
            have := h (i + 1) n h2.1 (Nat.le_refl _) hg hc.1
            rw [this] at h2; exact absurd h2.2 (by simp)
          · rfl
        · intro j m h1 h2 h3
          rw [AMap.get_del] at h3
          split at h3
          · cases h3
          · exact h j m h1 (by omega) h3
      · rfl

/-- What the second loop does to a node. -/
def retarget (p : Path) (old s : Nat) (i : Nat) (q : Path) (n : Node) : Node :=
  if q ≠ [] ∧ q.isPrefixOf (p.take i) = true ∧ n.filterStr = old then
    { n with filterStr := s, topicStr := s, topicOff := offOf q.dropLast }
  else n

theorem prefix_take_succ {p q : Path} {i : Nat} (hi : i < p.length) :
    q <+: p.take (i + 1) ↔ q = p.take (i + 1) ∨ q <+: p.take i := by
  rw [List.prefix_take_iff, List.prefix_take_iff]
  constructor
  · rintro ⟨h1, h2⟩
    by_cases h : q.length ≤ i
    · exact .inr ⟨h1, h⟩
    · left
      have := List.prefix_iff_eq_take.1 h1
      rw [this]
      congr 1
      omega
  · rintro (rfl | ⟨h1, h2⟩)
    · exact ⟨List.take_prefix _ _, by simp; omega⟩
    · exact ⟨h1, by omega⟩

theorem offOf_take_succ {p : Path} {i : Nat} (hi : i < p.length) :
    offOf (p.take (i + 1)) - ((p.getD i []).length + 1) = offOf (p.take i) := by
  rw [take_succ_append p i hi, offOf_append]
  simp only [offOf, List.getD_eq_getElem?_getD, List.getElem?_eq_getElem hi, Option.getD_some]
  omega

theorem take_dropLast {p : Path} {i : Nat} (hi : i < p.length) : (p.take (i + 1)).dropLast = p.take i := by
  rw [take_succ_append p i hi, List.dropLast_concat]

theorem fixup_some (pick : List Nat → Nat) (p : Path) (old s : Nat) : ∀ (i : Nat) (nodes : AMap Path Node) (freed : List Nat)
    (stolen : Bool), i ≤ p.length → (∀ j, 0 < j → j ≤ i → nodes.get (p.take j) ≠ none) →
    (fixupLoop pick p old nodes freed (offOf (p.take i)) (some s) stolen i).2 = (freed, stolen) ∧
    ∀ q, (fixupLoop pick p old nodes freed (offOf (p.take i)) (some s) stolen i).1.get q =
      (nodes.get q).map (retarget p old s i q) := by
  intro i
  induction i with
  | zero =>
    intro nodes freed stolen _ _
    refine ⟨rfl, ?_⟩
    intro q
    rw [fixupLoop]
    have : retarget p old s 0 q = id := by
      funext n
      unfold retarget
      rw [if_neg]; · rfl
      rintro ⟨h1, h2, _⟩
      simp at h2
      exact h1 h2
    rw [this, Option.map_id]; rfl
  | succ i ih =>
    intro nodes freed stolen hi hex
    obtain ⟨n, hn⟩ := Option.ne_none_iff_exists'.1 (hex (i + 1) (by omega) (Nat.le_refl _))
    rw [fixupLoop]
    simp only [hn, offOf_take_succ (show i < p.length by omega)]
    by_cases hu : n.filterStr = old
    · rw [if_pos hu]
      obtain ⟨h1, h2⟩ := ih (nodes.set (p.take (i + 1)) { n with filterStr := s, topicStr := s, topicOff := offOf (p.take i) })
        freed stolen (by omega) (fun j a b => (set_keys hn _).2 (hex j a (by omega)))
      refine ⟨h1, ?_⟩
      intro q
      rw [h2, AMap.get_set]
      by_cases hq : q = p.take (i + 1)
      · subst hq
        rw [if_pos rfl, hn, Option.map_some, Option.map_some]
        congr 1
        have e1 : retarget p old s (i + 1) (p.take (i + 1)) n =
            { n with filterStr := s, topicStr := s, topicOff := offOf (p.take i) } := by
          unfold retarget
          rw [if_pos ⟨take_ne_nil (by omega) hi, by simp, hu⟩, take_dropLast (by omega)]
        rw [e1]
        unfold retarget
        rw [if_neg]
        rintro ⟨_, h4, _⟩
        have := (List.isPrefixOf_iff_prefix.1 h4).length_le
        simp at this
        omega
      · rw [if_neg hq]
        congr 1
        funext m
        unfold retarget
        simp only [List.isPrefixOf_iff_prefix, prefix_take_succ (show i < p.length by omega), hq, false_or]
    · rw [if_neg hu]
      obtain ⟨h1, h2⟩ := ih nodes freed stolen (by omega) (fun j a b => hex j a (by omega))
      refine ⟨h1, ?_⟩
      intro q
      rw [h2]
      by_cases hq : q = p.take (i + 1)
      · subst hq
        rw [hn, Option.map_some, Option.map_some]
        unfold retarget
        simp [hu]
      · congr 1
        funext m
        unfold retarget
        simp only [List.isPrefixOf_iff_prefix, prefix_take_succ (show i < p.length by omega), hq, false_or]

theorem fixup_none (pick : List Nat → Nat) (p : Path) (old : Nat) (nodes : AMap Path Node) (freed : List Nat) : ∀ (i : Nat),
    i ≤ p.length → (∀ j, 0 < j → j ≤ i → nodes.get (p.take j) ≠ none) →
    ((fixupLoop pick p old nodes freed (offOf (p.take i)) none false i = (nodes, freed, false)) ∧
      ∀ j n, 0 < j → j ≤ i → nodes.get (p.take j) = some n → n.filterStr ≠ old) ∨
    ∃ j0 n0, 0 < j0 ∧ j0 ≤ i ∧ nodes.get (p.take j0) = some n0 ∧ n0.filterStr = old ∧
      (∀ j n, j0 < j → j ≤ i → nodes.get (p.take j) = some n → n.filterStr ≠ old) ∧
      (fixupLoop pick p old nodes freed (offOf (p.take i)) none false i).2 = (old :: freed, true) ∧
      ∀ q, (fixupLoop pick p old nodes freed (offOf (p.take i)) none false i).1.get q =
        (nodes.get q).map (retarget p old (pickString pick (finderCandidates nodes (p.take j0) old) old) j0 q) := by
  intro i
  induction i with
  | zero => intro _ _; exact .inl ⟨rfl, fun j n h1 h2 => by omega⟩
  | succ i ih =>
    intro hi hex
    obtain ⟨n, hn⟩ := Option.ne_none_iff_exists'.1 (hex (i + 1) (by omega) (Nat.le_refl _))
    by_cases hu : n.filterStr = old
    · right
      refine ⟨i + 1, n, by omega, Nat.le_refl _, hn, hu, fun j m h1 h2 => by omega, ?_⟩
      rw [fixupLoop]
      simp only [hn, offOf_take_succ (show i < p.length by omega)]
      rw [if_pos hu]
      generalize pickString pick (finderCandidates nodes (p.take (i + 1)) old) old = s
      obtain ⟨h1, h2⟩ := fixup_some pick p old s i
        (nodes.set (p.take (i + 1)) { n with filterStr := s, topicStr := s, topicOff := offOf (p.take i) })
        (old :: freed) true (by omega) (fun j a b => (set_keys hn _).2 (hex j a (by omega)))
      refine ⟨h1, ?_⟩
      intro q
      rw [h2, AMap.get_set]
      by_cases hq : q = p.take (i + 1)
      · subst hq
        rw [if_pos rfl, hn, Option.map_some, Option.map_some]
        congr 1
        have e1 : retarget p old s (i + 1) (p.take (i + 1)) n =
            { n with filterStr := s, topicStr := s, topicOff := offOf (p.take i) } := by
          unfold retarget
          rw [if_pos ⟨take_ne_nil (by omega) hi, by simp, hu⟩, take_dropLast (by omega)]
        rw [e1]
        unfold retarget
        rw [if_neg]
        rintro ⟨_, h4, _⟩
        have := (List.isPrefixOf_iff_prefix.1 h4).length_le
        simp at this
        omega
      · rw [if_neg hq]
        congr 1
        funext m
        unfold retarget
        simp only [List.isPrefixOf_iff_prefix, prefix_take_succ (show i < p.length by omega), hq, false_or]
    · have e : fixupLoop pick p old nodes freed (offOf (p.take (i + 1))) none false (i + 1) =
          fixupLoop pick p old nodes freed (offOf (p.take i)) none false i := by
        rw [fixupLoop]
        simp only [hn, offOf_take_succ (show i < p.length by omega)]
        rw [if_neg hu]
      rw [e]
      rcases ih (by omega) (fun j a b => hex j a (by omega)) with ⟨h1, h2⟩ | ⟨j0, n0, h1, h2, h3, h4, h5, h6⟩
      · left
        refine ⟨h1, ?_⟩
        intro j m a b c
        by_cases hj : j ≤ i
        · exact h2 j m a hj c
        · have : j = i + 1 := by omega
          subst this
          rw [hn] at c; simp only [Option.some.injEq] at c; rw [← c]; exact hu
      · right
        refine ⟨j0, n0, h1, by omega, h3, h4, ?_, h6⟩
        intro j m a b c
        by_cases hj : j ≤ i
        · exact h5 j m a hj c
        · have : j = i + 1 := by omega
          subst this
          rw [hn] at c; simp only [Option.some.injEq] at c; rw [← c]; exact hu

theorem mem_candidates {nodes : AMap Path Node} (hnd : nodes.Nodup) {parent : Path} {old s : Nat}
    (h : s ∈ finderCandidates nodes parent old) :
    ∃ c m, nodes.get c = some m ∧ parent <+: c ∧ m.filterStr = s ∧ s ≠ old := by
  unfold finderCandidates at h
  obtain ⟨⟨c, m⟩, h1, h2⟩ := List.mem_map.1 h
  rw [List.mem_filter] at h1
  simp only [Bool.and_eq_true, List.isPrefixOf_iff_prefix, decide_eq_true_eq] at h1
  exact ⟨c, m, (AMap.mem_iff_get hnd).1 h1.1, h1.2.1.1.1, h2, h2 ▸ h1.2.1.2⟩

theorem child_candidate {nodes : AMap Path Node} {parent : Path} {old : Nat} {l : Bytes} {m : Node}
    (h : nodes.get (parent ++ [l]) = some m) (hm : m.filterStr ≠ old) : m.filterStr ∈ finderCandidates nodes parent old := by
  unfold finderCandidates
  refine List.mem_map.2 ⟨(parent ++ [l], m), ?_, rfl⟩
  rw [List.mem_filter]
  refine ⟨AMap.get_some_mem h, ?_⟩
  simp only [Bool.and_eq_true, List.isPrefixOf_iff_prefix, decide_eq_true_eq, List.all_eq_true, List.mem_range, Bool.or_eq_true]
  refine ⟨⟨⟨List.prefix_append _ _, by simp⟩, hm⟩, ?_⟩
  intro k hk
  left
  simp at hk
  omega

/-- Removing a subscription with nothing below it. -/
theorem sinv_unsubscribe (pick : List Nat → Nat) (hpick : ∀ l, l ≠ [] → pick l ∈ l) {t : Tree} (h : SInv t [])
    (hi : Inv t.nodes) (f : Bytes) (hleaf : hasChild t.nodes (split 47 f) = false) : SInv (unsubscribe pick t f) [] := by
  unfold unsubscribe txRemove
  cases hg : t.nodes.get (split 47 f) with
  | none => exact h
  | some c =>
    simp only [commit, List.foldl_cons, List.foldl_nil, commitAction, commitRemove, hg]
    have hpne : split 47 f ≠ [] := split_ne_nil _ _
    generalize hp : split 47 f = p at *
    have hset := fun q => set_keys (m := { c with sub := none }) hg q
    have hInvP : InvP (t.nodes.set p { c with sub := none }) := hi.toInvP.of_same_keys (AMap.nodup_set hi.nodup _ _) hset
    have hex : ∀ j, 0 < j → j ≤ p.length → (t.nodes.set p { c with sub := none }).get (p.take j) ≠ none := by
      intro j h1 h2
      exact closed_prefix hInvP.closed (p := p) (by simp) (p.take j) (p.drop j) (by simp) (take_ne_nil h1 h2)
    obtain ⟨r1, r2, r3, r4, r5, r6⟩ :=
      pruneLoop_spec p p.length p.length _ t.freed (Nat.le_refl _) hInvP.nodup hex hInvP.closed
    obtain ⟨hIN, _⟩ := prune_inv hi hg t.freed
    have hfr := pruneLoop_freed p p.length p.length (t.nodes.set p { c with sub := none }) t.freed (Nat.le_refl _) (by
      intro j n h1 h2 h3 h4
      rw [AMap.get_set, if_neg] at h3
      · have := h.ownsub _ _ h3
        cases ho : n.owns with
        | false => rfl
        | true => exact absurd h4 (this.1 ho)
      · intro e
        have := congrArg List.length e
        rw [List.length_take] at this
        omega)
    generalize hr : pruneLoop p p.length (t.nodes.set p { c with sub := none }) t.freed p.length = r at *
    obtain ⟨N, freed, left⟩ := r
    simp only at r1 r2 r3 r4 r5 r6 hIN hfr
    subst hfr
    -- the leaf is a subscription and owns its string
    have hcsub : c.sub ≠ none := by
      intro e
      rw [hi.live p c hg e] at hleaf; cases hleaf
    have hcown : c.owns = true := (h.ownsub p c hg).2 hcsub
    have hcpath := h.path p c hg hcown
    have hplen : 0 < p.length := List.length_pos_iff.2 hpne
    -- the leaf itself is pruned
    have hNp : N.get p = none := by
      by_cases hl : left < p.length
      · rw [r3, if_pos ⟨p.length, hl, Nat.le_refl _, by simp⟩]
      · exfalso
        have hl2 : left = p.length := by omega
        obtain ⟨n, h1, h2⟩ := r5 (by omega)
        rw [hl2, List.take_length] at h1 h2
        have hNsame : ∀ q, N.get q = (t.nodes.set p { c with sub := none }).get q := by
          intro q
          rw [r3, if_neg]
          rintro ⟨j, a, b, _⟩; omega
        rw [hNsame, AMap.get_set_same] at h1
        simp only [Option.some.injEq] at h1
        rcases h2 with h2 | h2
        · rw [← h1] at h2; exact h2 rfl
        · rw [hasChild_iff] at h2
          obtain ⟨l, h2⟩ := h2
          rw [hNsame, hset] at h2
          exact h2 (hasChild_false_iff.1 hleaf l)
    have hleft : left < p.length := by
      rcases Nat.lt_or_ge left p.length with hl | hl
      · exact hl
      · exfalso
        have : left = p.length := by omega
        obtain ⟨n, h1, _⟩ := r5 (by omega)
        rw [this, List.take_length, hNp] at h1; cases h1
    have hNt : ∀ q n, N.get q = some n → q ≠ p ∧ t.nodes.get q = some n := by
      intro q n hq
      have hqp : q ≠ p := by rintro rfl; rw [hNp] at hq; cases hq
      refine ⟨hqp, ?_⟩
      rw [r3] at hq
      split at hq
      · cases hq
      · rwa [AMap.get_set, if_neg hqp] at hq
    have htN : ∀ q n, t.nodes.get q = some n → q ≠ p → n.sub ≠ none → N.get q = some n := by
      intro q n hq hqp hs
      rw [r3, if_neg]
      · rw [AMap.get_set, if_neg hqp]; exact hq
      · rintro ⟨j, a, b, rfl⟩
        apply hs
        apply r4 j n a b
        rw [AMap.get_set, if_neg hqp]; exact hq
    -- users of the leaf's string lie on the path
    have huser : ∀ q n, t.nodes.get q = some n → n.filterStr = c.filterStr → q <+: p := by
      intro q n hq e
      have := (h.ref q n hq).2.2.2.2
      rwa [e, hcpath] at this
    have hqne : ∀ q n, t.nodes.get q = some n → q ≠ [] := by
      rintro q n hq rfl
      rw [hi.noRoot] at hq; cases hq
    have huserN : ∀ q n, N.get q = some n → n.filterStr = c.filterStr → ∃ j, 0 < j ∧ j ≤ left ∧ q = p.take j := by
      intro q n hq e
      obtain ⟨h1, h2⟩ := hNt q n hq
      have hpre := huser q n h2 e
      refine ⟨q.length, List.length_pos_iff.2 (hqne q n h2), ?_, List.prefix_iff_eq_take.1 hpre⟩
      rcases Nat.lt_or_ge left q.length with hl | hl
      · exfalso
        rw [r3, if_pos ⟨q.length, hl, hpre.length_le, List.prefix_iff_eq_take.1 hpre⟩] at hq
        cases hq
      · exact hl
    have hNoOwn : ∀ q n, N.get q = some n → n.filterStr = c.filterStr → n.owns = false := by
      intro q n hq e
      obtain ⟨h1, h2⟩ := hNt q n hq
      cases ho : n.owns with
      | false => rfl
      | true =>
        have := h.path q n h2 ho
        rw [e, hcpath] at this
        exact absurd this.symm h1
    have hcFresh := (h.ref p c hg).2.2.1
    -- the final state, given what the second loop does
    have finish : ∀ (M : AMap Path Node) (s j0 : Nat),
        (∀ q, M.get q = (N.get q).map (retarget p c.filterStr s j0 q)) → j0 ≤ p.length →
        (∀ j n, j0 < j → j ≤ left → N.get (p.take j) = some n → n.filterStr ≠ c.filterStr) →
        (0 < j0 → (∃ n, N.get (p.take j0) = some n ∧ n.filterStr = c.filterStr) →
          ∃ e m, N.get e = some m ∧ p.take j0 <+: e ∧ m.filterStr = s ∧ s ≠ c.filterStr) →
        (0 < j0 → ∃ n, N.get (p.take j0) = some n ∧ n.filterStr = c.filterStr) →
        SInv { t with nodes := M, freed := c.filterStr :: t.freed, cleaned := t.cleaned ++ cleanupOf c.sub } [] := by
      intro M s j0 hM hj0 hno hcand0 hex0
      have hcand : 0 < j0 → ∃ e m, N.get e = some m ∧ p.take j0 <+: e ∧ m.filterStr = s ∧ s ≠ c.filterStr :=
        fun h => hcand0 h (hex0 h)
      -- shape of a node of the result
      have hshape : ∀ q m, M.get q = some m → ∃ n, N.get q = some n ∧ m.owns = n.owns ∧ m.sub = n.sub ∧
          ((m = n ∧ n.filterStr ≠ c.filterStr) ∨
           (n.filterStr = c.filterStr ∧ q <+: p.take j0 ∧ 0 < j0 ∧ m.filterStr = s ∧ m.topicStr = s ∧ m.topicOff = offOf q.dropLast)) := by
        intro q m hq
        rw [hM] at hq
        cases hn : N.get q with
        | none => rw [hn] at hq; cases hq
        | some n =>
          rw [hn, Option.map_some, Option.some.injEq] at hq
          refine ⟨n, rfl, ?_⟩
          by_cases hu : n.filterStr = c.filterStr
          · obtain ⟨j, hj1, hj2, hj3⟩ := huserN q n hn hu
            have hjj : j ≤ j0 := by
              rcases Nat.lt_or_ge j0 j with hl | hl
              · exact absurd hu (hno j n hl hj2 (hj3 ▸ hn))
              · exact hl
            have hpre : q <+: p.take j0 := by
              rw [hj3]
              exact List.take_prefix_take_left hjj
            unfold retarget at hq
            rw [if_pos ⟨hqne q n (hNt q n hn).2, List.isPrefixOf_iff_prefix.2 hpre, hu⟩] at hq
            subst hq
            exact ⟨rfl, rfl, .inr ⟨hu, hpre, by omega, rfl, rfl, rfl⟩⟩
          · unfold retarget at hq
            rw [if_neg (fun h => hu h.2.2)] at hq
            subst hq
            exact ⟨rfl, rfl, .inl ⟨rfl, hu⟩⟩
      -- owners survive
      have howner : ∀ o m, t.nodes.get o = some m → m.owns = true → m.filterStr ≠ c.filterStr → M.get o = some m := by
        intro o m ho hmo hne
        have hop : o ≠ p := by rintro rfl; rw [hg] at ho; simp only [Option.some.injEq] at ho; rw [ho] at hne; exact hne rfl
        rw [hM, htN o m ho hop ((h.ownsub o m ho).1 hmo), Option.map_some]
        unfold retarget
        rw [if_neg (fun h => hne h.2.2)]
      have hsa : ∀ y, strAt { t with nodes := M, freed := c.filterStr :: t.freed, cleaned := t.cleaned ++ cleanupOf c.sub } y = strAt t y :=
        fun _ => rfl
      constructor
      · intro q m hq
        obtain ⟨n, hn, _, _, hc | ⟨hu, hpre, hj, e1, e2, e3⟩⟩ := hshape q m hq
        · obtain ⟨rfl, hu⟩ := hc
          obtain ⟨a1, a2, a3, a4, a5⟩ := h.ref q m (hNt q m hn).2
          exact ⟨a1, a2, by simp only [List.mem_cons, not_or]; exact ⟨hu, a3⟩, a4, a5⟩
        · obtain ⟨e, me, c1, c2, c3, c4⟩ := hcand hj
          obtain ⟨a1, a2, a3, a4, a5⟩ := h.ref e me (hNt e me c1).2
          rw [c3] at a2 a3 a5
          refine ⟨by rw [e1, e2], by rw [e1]; exact a2, ?_, e3, ?_⟩
          · rw [e1]; simp only [List.mem_cons, not_or]; exact ⟨c4, a3⟩
          · rw [e1, hsa]; exact (hpre.trans c2).trans a5
      · intro q m hq
        left
        obtain ⟨n, hn, _, _, hc | ⟨hu, hpre, hj, e1, e2, e3⟩⟩ := hshape q m hq
        · obtain ⟨rfl, hu⟩ := hc
          rcases h.owned q m (hNt q m hn).2 with ⟨o, mo, b1, b2, b3, b4⟩ | ⟨o, _, b⟩
          · exact ⟨o, mo, b1, howner o mo b2 b3 (by rw [b4]; exact hu), b3, b4⟩
          · simp at b
        · obtain ⟨e, me, c1, c2, c3, c4⟩ := hcand hj
          rcases h.owned e me (hNt e me c1).2 with ⟨o, mo, b1, b2, b3, b4⟩ | ⟨o, _, b⟩
          · exact ⟨o, mo, (hpre.trans c2).trans b1, howner o mo b2 b3 (by rw [b4, c3]; exact c4), b3, by rw [b4, c3, e1]⟩
          · simp at b
      · intro q m hq hmo
        obtain ⟨n, hn, e1, _, hc | ⟨hu, _⟩⟩ := hshape q m hq
        · obtain ⟨rfl, hu⟩ := hc
          exact h.path q m (hNt q m hn).2 hmo
        · rw [e1, hNoOwn q n hn hu] at hmo; cases hmo
      · intro q m hq
        obtain ⟨n, hn, e1, e2, _⟩ := hshape q m hq
        rw [e1, e2]
        exact h.ownsub q n (hNt q n hn).2
      · intro q x hx; simp at hx
      · simp
      · intro x hx
        rcases List.mem_cons.1 hx with rfl | hx
        · exact (h.ref p c hg).2.1
        · exact h.freedLt x hx
      · exact List.nodup_cons.2 ⟨hcFresh, h.freedNodup⟩
    simp only [if_pos hleft]
    by_cases hl0 : left > 0
    · obtain ⟨par, hpar, _⟩ := r5 hl0
      have hoff : par.topicOff + (p.getD (left - 1) []).length + 1 = offOf (p.take left) := by
        obtain ⟨i, rfl⟩ : ∃ i, left = i + 1 := ⟨left - 1, by omega⟩
        have := (h.ref _ _ (hNt _ _ hpar).2).2.2.2.1
        rw [take_dropLast (by omega)] at this
        rw [this, take_succ_append p i (by omega), offOf_append]
        simp only [offOf, Nat.add_sub_cancel, List.getD_eq_getElem?_getD,
          List.getElem?_eq_getElem (show i < p.length by omega), Option.getD_some]
        omega
      have hexN : ∀ j, 0 < j → j ≤ left → N.get (p.take j) ≠ none := by
        intro j h1 h2
        obtain ⟨post, hpost⟩ : p.take j <+: p.take left := List.take_prefix_take_left h2
        exact closed_prefix r6 (p := p.take left) (by rw [hpar]; simp) (p.take j) post hpost.symm
          (take_ne_nil h1 (by omega))
      simp only [if_pos hl0, hpar, hoff]
      rcases fixup_none pick p c.filterStr N t.freed left (by omega) hexN with ⟨e, hno⟩ | ⟨j0, n0, b1, b2, b3, b4, b5, b6, b7⟩
      · rw [e]
        simp only [hcown, Bool.not_false, Bool.and_self, if_true]
        refine finish N 0 0 ?_ (by omega) (fun j n a b => hno j n a b) (fun h => absurd h (by omega)) (fun h => absurd h (by omega))
        intro q
        have : retarget p c.filterStr 0 0 q = id := by
          funext n
          unfold retarget
          rw [if_neg]; · rfl
          rintro ⟨h1, h2, _⟩
          simp at h2
          exact h1 h2
        rw [this, Option.map_id]; rfl
      · have e1 := congrArg Prod.fst b6
        have e2 := congrArg Prod.snd b6
        simp only at e1 e2
        simp only [e1, e2, hcown, Bool.not_true, Bool.and_false, Bool.false_eq_true, if_false]
        refine finish _ _ j0 b7 (by omega) (fun j n a b => b5 j n a b) ?_ (fun _ => ⟨n0, b3, b4⟩)
        intro _ _
        have hn0sub : n0.sub = none := by
          have := h.ownsub _ _ (hNt _ _ b3).2
          cases hs : n0.sub with
          | none => rfl
          | some x =>
            have ho := this.2 (by rw [hs]; simp)
            rw [hNoOwn _ _ b3 b4] at ho; cases ho
        have hch := hIN.live _ _ b3 hn0sub
        rw [hasChild_iff] at hch
        obtain ⟨l, hl⟩ := hch
        obtain ⟨m, hm⟩ := Option.ne_none_iff_exists'.1 hl
        have hmne : m.filterStr ≠ c.filterStr := by
          intro e
          obtain ⟨j, d1, d2, d3⟩ := huserN _ _ hm e
          have hlen := congrArg List.length d3
          rw [List.length_append, List.length_take, List.length_take] at hlen
          simp at hlen
          exact b5 j m (by omega) d2 (d3 ▸ hm) e
        have hmem := child_candidate hm hmne
        have hne : finderCandidates N (p.take j0) c.filterStr ≠ [] := by
          intro e; rw [e] at hmem; simp at hmem
        unfold pickString
        rw [if_neg hne]
        exact mem_candidates r2 (hpick _ hne)
    · simp only [if_neg hl0, hcown, Bool.not_false, Bool.and_self, if_true]
      refine finish N 0 0 ?_ (by omega) (fun j n a b => by omega) (fun h => absurd h (by omega)) (fun h => absurd h (by omega))
      intro q
      have : retarget p c.filterStr 0 0 q = id := by
        funext n
        unfold retarget
        rw [if_neg]; · rfl
        rintro ⟨h1, h2, _⟩
        simp at h2
        exact h1 h2
      rw [this, Option.map_id]; rfl

end Mqtt.TopicTree
