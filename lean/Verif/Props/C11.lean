import Verif.Lemmas.TopicStrings
import Verif.Props.C09

/-!
C11: whether the 3.1.1 subscription table refers to freed topic strings.
-/
namespace Mqtt.Props
open Mqtt Mqtt.Spec Mqtt.TopicTree

/-- Every node's strings are alive. -/
def NoDangling (t : Tree) : Prop := ∀ p n, t.nodes.get p = some n → n.topicStr ∉ t.freed ∧ n.filterStr ∉ t.freed

/-- Every node's topic cursor reads the last level of its path. -/
def LevelsReadBack (t : Tree) : Prop :=
  ∀ p l n, t.nodes.get (p ++ [l]) = some n → ((t.strings.getD n.topicStr []).drop n.topicOff).take l.length = l

/-- The hash table's iteration visits some element first when there is one. -/
def FairPick (pick : List Nat → Nat) : Prop := ∀ l, l ≠ [] → pick l ∈ l

/-- Histories in which a SUBSCRIBE has no filter twice and an UNSUBSCRIBE names a filter with no
current subscription below it. -/
def SafeHistory (ops : List ((List Nat → Nat) × TableOp)) : Prop :=
  ∀ pre op post, ops = pre ++ op :: post → LegalOp op ∧ FairPick op.1 ∧
    match op.2 with
    | .subscribe fs => (fs.map (·.1)).Nodup
    | .unsubscribe f => ∀ g s x y, mapRun pre g = some s → Levels g (split 47 f ++ x :: y) → False
    | .abort _ => True

theorem deeper_subscription {nodes : AMap Path Node} (h : TopicTree.Inv nodes) : ∀ (k : Nat) (p : Path) (n : Node),
    (∀ e ∈ nodes, e.1.length ≤ p.length + k) → nodes.get p = some n → ∃ post s, subAt nodes (p ++ post) = some s := by
  intro k
  induction k with
  | zero =>
    intro p n hk hp
    cases hs : n.sub with
    | some s => exact ⟨[], s, by simp [subAt, hp, hs]⟩
    | none =>
      have := h.live p n hp hs
      rw [hasChild_iff] at this
      obtain ⟨l, hl⟩ := this
      obtain ⟨m, hm⟩ := Option.ne_none_iff_exists'.1 hl
      have := hk _ (AMap.get_some_mem hm)
      simp at this
      omega
  | succ k ih =>
    intro p n hk hp
    cases hs : n.sub with
    | some s => exact ⟨[], s, by simp [subAt, hp, hs]⟩
    | none =>
      have := h.live p n hp hs
      rw [hasChild_iff] at this
      obtain ⟨l, hl⟩ := this
      obtain ⟨m, hm⟩ := Option.ne_none_iff_exists'.1 hl
      obtain ⟨post, s, h2⟩ := ih (p ++ [l]) m (fun e he => by have := hk e he; simp; omega) hm
      exact ⟨l :: post, s, by simpa using h2⟩

theorem exists_bound (nodes : AMap Path Node) : ∃ k, ∀ e ∈ nodes, e.1.length ≤ k := by
  induction nodes with
  | nil => exact ⟨0, by simp⟩
  | cons e l ih =>
    obtain ⟨k, hk⟩ := ih
    refine ⟨max k e.1.length, ?_⟩
    intro x hx
    rcases List.mem_cons.1 hx with rfl | hx
    · omega
    · have := hk x hx; omega

theorem leaf_of_map {ops : List ((List Nat → Nat) × TableOp)} (hops : ∀ op ∈ ops, LegalOp op) {f : Bytes}
    (h : ∀ g s x y, mapRun ops g = some s → Levels g (split 47 f ++ x :: y) → False) :
    hasChild (tableRun ops).nodes (split 47 f) = false := by
  obtain ⟨hi, hr, _⟩ := tableRun_spec ops hops
  rw [hasChild_false_iff]
  intro l
  cases hg : (tableRun ops).nodes.get (split 47 f ++ [l]) with
  | none => rfl
  | some n =>
    exfalso
    obtain ⟨k, hk⟩ := exists_bound (tableRun ops).nodes
    obtain ⟨post, s, hs⟩ := deeper_subscription hi k _ n (fun e he => by have := hk e he; omega) hg
    obtain ⟨g, hgf⟩ := hr.2 _ _ hs
    have := hr.1 g
    rw [← hgf, hs] at this
    exact h g s l post this.symm (by rw [levels_iff, ← hgf]; simp)

theorem safe_sinv (ops : List ((List Nat → Nat) × TableOp)) : SafeHistory ops → SInv (tableRun ops) [] := by
  induction ops using List.reverseRecOn with
  | nil => intro _; exact sinv_init
  | append_singleton ops op ih =>
    intro h
    have hpre : SafeHistory ops := by
      intro pre o post e
      exact h pre o (post ++ [op]) (by simp [e])
    have hl : ∀ o ∈ ops, LegalOp o := by
      intro o ho
      obtain ⟨a, b, e⟩ := List.append_of_mem ho
      exact (hpre a o b e).1
    have hi := (tableRun_spec ops hl).1
    have hS := ih hpre
    obtain ⟨h1, h2, h3⟩ := h ops op [] (by simp)
    rw [tableRun, List.foldl_append]
    show SInv (tableStep (tableRun ops) op) []
    obtain ⟨pick, op⟩ := op
    cases op with
    | subscribe fs => exact sinv_subscribe pick hS hi.closed fs h3
    | unsubscribe f => exact sinv_unsubscribe pick h2 hS hi f (leaf_of_map hl h3)
    | abort steps => exact sinv_aborted hS hi.closed steps

/-- In histories that never subscribe a filter twice in one packet and never unsubscribe a filter
above another subscription, all strings referred to are alive, every level reads back, and no string
is freed twice. Missing for C11: the other histories, where it fails, see `C11_violated` and
`C11_violated_duplicate`. -/
theorem C11_strings_partial (ops : List ((List Nat → Nat) × TableOp)) (h : SafeHistory ops) :
    NoDangling (tableRun ops) ∧ LevelsReadBack (tableRun ops) ∧ (tableRun ops).freed.Nodup := by
  have hS := safe_sinv ops h
  refine ⟨?_, ?_, hS.freedNodup⟩
  · intro p n hp
    obtain ⟨a, b, c, _⟩ := hS.ref p n hp
    exact ⟨a ▸ c, c⟩
  · intro p l n hp
    obtain ⟨a, b, c, d, e⟩ := hS.ref _ n hp
    rw [d, List.dropLast_concat, a]
    exact read_level p _ l e

/-- The order used in the counterexamples: first element. -/
def firstPick (l : List Nat) : Nat := l.headD 0

theorem firstPick_fair : FairPick firstPick := by
  intro l hl
  cases l with
  | nil => exact absurd rfl hl
  | cons x l => simp [firstPick]

/-- subscribe `a/b`, `a/b/c`; unsubscribe `a/b`; subscribe `a/d`; unsubscribe `a/b/c`. -/
def danglingOps : List ((List Nat → Nat) × TableOp) :=
  [(firstPick, .subscribe [([97, 47, 98], exampleSub 1)]),
   (firstPick, .subscribe [([97, 47, 98, 47, 99], exampleSub 2)]),
   (firstPick, .unsubscribe [97, 47, 98]),
   (firstPick, .subscribe [([97, 47, 100], exampleSub 3)]),
   (firstPick, .unsubscribe [97, 47, 98, 47, 99])]

/-- subscribe `a` and `a` in one packet. -/
def duplicateOps : List ((List Nat → Nat) × TableOp) :=
  [(firstPick, .subscribe [([97], exampleSub 1), ([97], exampleSub 2)])]

theorem danglingOps_legal : ∀ op ∈ danglingOps, LegalOp op ∧ FairPick op.1 := by
  intro op hop
  simp only [danglingOps, List.mem_cons, List.not_mem_nil, or_false] at hop
  rcases hop with rfl | rfl | rfl | rfl | rfl
  all_goals refine ⟨?_, firstPick_fair⟩
  all_goals try trivial
  all_goals
    intro e he
    simp only [List.mem_cons, List.not_mem_nil, or_false] at he
    subst he
    exact (C08_filter _).1 (by decide +kernel)

theorem duplicateOps_legal : ∀ op ∈ duplicateOps, LegalOp op ∧ FairPick op.1 := by
  intro op hop
  simp only [duplicateOps, List.mem_cons, List.not_mem_nil, or_false] at hop
  subst hop
  refine ⟨?_, firstPick_fair⟩
  intro e he
  simp only [List.mem_cons, List.not_mem_nil, or_false] at he
  rcases he with rfl | rfl <;> exact (C08_filter _).1 (by decide +kernel)

/-- C11 fails: a legal history after which node `a` refers to a freed string. -/
theorem C11_violated : ∃ ops, (∀ op ∈ ops, LegalOp op ∧ FairPick op.1) ∧ ¬ NoDangling (tableRun ops) := by
  refine ⟨danglingOps, danglingOps_legal, ?_⟩
  intro h
  have hget : (tableRun danglingOps).nodes.get [[97]] =
      some { sub := none, topicStr := 0, topicOff := 0, filterStr := 0, owns := false } := by decide +kernel
  exact (h _ _ hget).1 (by decide +kernel)

/-- C11 fails after a single SUBSCRIBE that lists a filter twice. -/
theorem C11_violated_duplicate : ∃ ops, (∀ op ∈ ops, LegalOp op ∧ FairPick op.1) ∧ ¬ NoDangling (tableRun ops) ∧ ops.length = 1 := by
  refine ⟨duplicateOps, duplicateOps_legal, ?_, rfl⟩
  intro h
  have hget : (tableRun duplicateOps).nodes.get [[97]] =
      some { sub := some (exampleSub 2), topicStr := 1, topicOff := 0, filterStr := 0, owns := true } := by decide +kernel
  exact (h _ _ hget).1 (by decide +kernel)

/-- A safe history in which a string has to be replaced: `a/b`, then `a/c`, then `a/b` unsubscribed. -/
def safeOps : List ((List Nat → Nat) × TableOp) :=
  [(firstPick, .subscribe [([97, 47, 98], exampleSub 1), ([97, 47, 99], exampleSub 2)]), (firstPick, .unsubscribe [97, 47, 98])]

example : SafeHistory safeOps ∧ (tableRun safeOps).freed = [0] ∧
    (tableRun safeOps).nodes.get [[97]] =
      some { sub := none, topicStr := 1, topicOff := 0, filterStr := 1, owns := false } := by
  refine ⟨?_, by decide +kernel, by decide +kernel⟩
  intro pre op post e
  rcases pre with _ | ⟨p1, _ | ⟨p2, pre⟩⟩
  · simp only [safeOps, List.nil_append, List.cons.injEq] at e
    rw [← e.1]
    refine ⟨?_, firstPick_fair, by decide +kernel⟩
    intro x hx
    simp only [List.mem_cons, List.not_mem_nil, or_false] at hx
    rcases hx with rfl | rfl <;> exact (C08_filter _).1 (by decide +kernel)
  · simp only [safeOps, List.cons_append, List.nil_append, List.cons.injEq] at e
    rw [← e.2.1, ← e.1]
    refine ⟨trivial, firstPick_fair, ?_⟩
    intro g s x y hg hl
    simp only [mapRun, List.foldl_cons, List.foldl_nil, mapStep] at hg
    rw [levels_iff, show split 47 [97, 47, 98] = [[97], [98]] by decide] at hl
    split at hg
    · next h => subst h; rw [show split 47 [97, 47, 99] = [[97], [99]] by decide] at hl; simp at hl
    · split at hg
      · next h => subst h; rw [show split 47 [97, 47, 98] = [[97], [98]] by decide] at hl; simp at hl
      · cases hg
  · simp [safeOps] at e

end Mqtt.Props
