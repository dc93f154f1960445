import Verif.Spec.Listener311

/-!
Listeners, their callback sets and their tasks (C86).
-/
namespace Mqtt.Listener311

def inits (q : List Task) : List Nat :=
  q.filterMap fun t => match t with
    | .initialize n => some n
    | _ => none

@[simp] theorem mem_inits {q : List Task} {n : Nat} : n ∈ inits q ↔ .initialize n ∈ q := by
  unfold inits
  rw [List.mem_filterMap]
  constructor
  · rintro ⟨t, ht, e⟩
    cases t with
    | «initialize» m => simp at e; rw [← e]; exact ht
    | terminate m => simp at e
  · intro h; exact ⟨_, h, rfl⟩

structure SI (c : Conn) : Prop where
  refs : c.refs = c.held + c.own + c.listeners.length
  numNd : (c.listeners.map (·.num)).Nodup
  numLt : ∀ l ∈ c.listeners, l.num < c.nextNum
  waiting : ∀ l ∈ c.listeners, .initialize l.num ∈ c.queue → l.refs = l.held + 1 ∧ (∀ e ∈ c.entries, e.num ≠ l.num) ∧ .terminate l.num ∉ c.queue
  ready : ∀ l ∈ c.listeners, .initialize l.num ∉ c.queue → l.refs = l.held ∧ ⟨l.setId, l.num, l.handles⟩ ∈ c.entries ∧
    (.terminate l.num ∈ c.queue ↔ l.held = 0)
  qNd : c.queue.Nodup
  tasks : ∀ n, (.initialize n ∈ c.queue ∨ .terminate n ∈ c.queue) → ∃ l ∈ c.listeners, l.num = n
  idNd : (c.entries.map (·.id)).Nodup
  idLt : ∀ e ∈ c.entries, e.id < c.nextId
  ent : ∀ e ∈ c.entries, ∃ l ∈ c.listeners, e = ⟨l.setId, l.num, l.handles⟩
  sorted : (c.entries.map (·.num)).Pairwise (· > ·)
  later : ∀ n, .initialize n ∈ c.queue → ∀ e ∈ c.entries, e.num < n
  order : (inits c.queue).Pairwise (· < ·)
  busy : c.firing ≠ none → 0 < c.own

theorem nodup_key {α β : Type} {f : α → β} {l : List α} (h : (l.map f).Nodup) {a b : α} (ha : a ∈ l) (hb : b ∈ l) (e : f a = f b) : a = b := by
  induction l with
  | nil => cases ha
  | cons x l ih =>
    simp only [List.map_cons, List.nodup_cons, List.mem_map, not_exists, not_and] at h
    rcases List.mem_cons.1 ha with rfl | ha' <;> rcases List.mem_cons.1 hb with rfl | hb'
    · rfl
    · exact absurd e.symm (h.1 b hb')
    · exact absurd e (h.1 a ha')
    · exact ih h.2 ha' hb'

theorem find_of {c : Conn} (h : (c.listeners.map (·.num)).Nodup) {l : Listener} (hl : l ∈ c.listeners) : c.find l.num = some l := by
  unfold Conn.find
  cases hf : c.listeners.find? (·.num = l.num) with
  | none => have := List.find?_eq_none.1 hf l hl; simp at this
  | some x =>
    have h1 := List.mem_of_find?_eq_some hf
    have h2 := List.find?_some hf
    simp only [decide_eq_true_eq] at h2
    rw [nodup_key h h1 hl h2]

theorem modify_num {ls : List Listener} {num : Nat} {f : Listener → Listener} (hf : ∀ l, (f l).num = l.num) :
    (ls.map fun l => if l.num = num then f l else l).map (·.num) = ls.map (·.num) := by
  rw [List.map_map]
  congr 1
  funext l
  simp only [Function.comp]
  split
  · exact hf l
  · rfl

theorem mem_modify {ls : List Listener} (h : (ls.map (·.num)).Nodup) {l : Listener} (hl : l ∈ ls) {f : Listener → Listener} {x : Listener} :
    x ∈ (ls.map fun y => if y.num = l.num then f y else y) ↔ x = f l ∨ (x ∈ ls ∧ x.num ≠ l.num) := by
  rw [List.mem_map]
  constructor
  · rintro ⟨y, hy, rfl⟩
    by_cases e : y.num = l.num
    · rw [if_pos e, nodup_key h hy hl e]; exact .inl rfl
    · rw [if_neg e]; exact .inr ⟨hy, e⟩
  · rintro (rfl | ⟨hx, e⟩)
    · exact ⟨l, hl, if_pos rfl⟩
    · exact ⟨x, hx, if_neg e⟩

theorem removeEntry_sub (id : Nat) : ∀ es : List SetEntry, (removeEntry id es).Sublist es
  | [] => .slnil
  | e :: es => by
    unfold removeEntry
    split
    · exact List.sublist_cons_self _ _
    · exact (removeEntry_sub id es).cons_cons _

theorem mem_removeEntry {id : Nat} : ∀ {es : List SetEntry}, (es.map (·.id)).Nodup → ∀ {e : SetEntry}, e ∈ removeEntry id es ↔ e ∈ es ∧ e.id ≠ id
  | [], _, e => by simp [removeEntry]
  | x :: es, h, e => by
    simp only [List.map_cons, List.nodup_cons, List.mem_map, not_exists, not_and] at h
    unfold removeEntry
    split
    · next hx =>
      constructor
      · intro he
        exact ⟨List.mem_cons_of_mem _ he, fun e1 => h.1 e he (e1.trans hx.symm)⟩
      · rintro ⟨he, hne⟩
        rcases List.mem_cons.1 he with rfl | he
        · exact absurd hx hne
        · exact he
    · next hx =>
      rw [List.mem_cons, mem_removeEntry h.2, List.mem_cons]
      constructor
      · rintro (rfl | ⟨h1, h2⟩)
        · exact ⟨.inl rfl, hx⟩
        · exact ⟨.inr h1, h2⟩
      · rintro ⟨rfl | h1, h2⟩
        · exact .inl rfl
        · exact .inr ⟨h1, h2⟩

theorem inits_append (p q : List Task) : inits (p ++ q) = inits p ++ inits q := List.filterMap_append

theorem si_init : SI {} := by
  constructor <;> simp [inits]

theorem si_new {c : Conn} (h : SI c) (hs : List Kind) : SI (step c (.new hs)).1 := by
  obtain ⟨a1, a2, a3, a4, a5, a6, a7, a8, a9, a10, a11, a12, a13, a14⟩ := h
  have hq : ∀ n, c.nextNum ≤ n → .initialize n ∉ c.queue ∧ .terminate n ∉ c.queue := by
    intro n hn
    constructor
    · intro hx; obtain ⟨l, hl, e⟩ := a7 n (.inl hx); have := a3 l hl; omega
    · intro hx; obtain ⟨l, hl, e⟩ := a7 n (.inr hx); have := a3 l hl; omega
  have he : ∀ e ∈ c.entries, e.num < c.nextNum := by
    intro e hx
    obtain ⟨l, hl, rfl⟩ := a10 e hx
    exact a3 l hl
  unfold step
  constructor
  · simp; omega
  · simp only [List.map_append, List.map_cons, List.map_nil, List.nodup_append]
    refine ⟨a2, by simp, ?_⟩
    intro x hx y hy
    obtain ⟨z, hz, rfl⟩ := List.mem_map.1 hx
    have := a3 z hz
    simp at hy; omega
  · grind
  · intro l hl hi
    simp only [List.mem_append, List.mem_singleton] at hl hi ⊢
    rcases hl with hl | rfl
    · have := a3 l hl
      rcases hi with hi | hi
      · obtain ⟨b1, b2, b3⟩ := a4 l hl hi
        exact ⟨b1, b2, by simpa using b3⟩
      · injection hi; omega
    · refine ⟨rfl, fun e hx => ?_, ?_⟩
      · have := he e hx; simp only; omega
      · have := (hq c.nextNum (Nat.le_refl _)).2; simpa using this
  · intro l hl hi
    simp only [List.mem_append, List.mem_singleton, not_or] at hl hi ⊢
    rcases hl with hl | rfl
    · obtain ⟨b1, b2, b3⟩ := a5 l hl hi.1
      exact ⟨b1, b2, by simpa using b3⟩
    · simp at hi
  · rw [List.nodup_append]
    refine ⟨a6, by simp, ?_⟩
    intro x hx y hy
    simp at hy
    rintro rfl
    rw [hy] at hx
    exact (hq _ (Nat.le_refl _)).1 hx
  · intro n hn
    simp only [List.mem_append, List.mem_singleton] at hn ⊢
    rcases hn with (hn | hn) | (hn | hn)
    · obtain ⟨l, hl, e⟩ := a7 n (.inl hn); exact ⟨l, .inl hl, e⟩
    · injection hn with hn; exact ⟨_, .inr rfl, hn.symm⟩
    · obtain ⟨l, hl, e⟩ := a7 n (.inr hn); exact ⟨l, .inl hl, e⟩
    · cases hn
  · exact a8
  · exact a9
  · intro e hx
    obtain ⟨l, hl, e1⟩ := a10 e hx
    exact ⟨l, List.mem_append_left _ hl, e1⟩
  · exact a11
  · intro n hn e hx
    simp only [List.mem_append, List.mem_singleton] at hn
    rcases hn with hn | hn
    · exact a12 n hn e hx
    · injection hn with hn; have := he e hx; omega
  · simp only [inits_append]
    rw [List.pairwise_append]
    refine ⟨a13, by simp [inits], ?_⟩
    intro x hx y hy
    obtain ⟨l, hl, e⟩ := a7 x (.inl (mem_inits.1 hx))
    have := a3 l hl
    simp [inits] at hy; omega
  · exact a14

theorem si_acquire {c : Conn} (h : SI c) {l : Listener} (hl : l ∈ c.listeners) (hh : 0 < l.held) : SI (step c (.acquire l.num)).1 := by
  obtain ⟨a1, a2, a3, a4, a5, a6, a7, a8, a9, a10, a11, a12, a13, a14⟩ := h
  have hm := @mem_modify c.listeners a2 l hl (fun l => { l with refs := l.refs + 1, held := l.held + 1 })
  unfold step Conn.modify
  constructor
  · simp [a1]
  · show (List.map _ (List.map _ _)).Nodup
    rw [modify_num (by intro l; rfl)]; exact a2
  · intro x hx
    rcases hm.1 hx with rfl | ⟨hx, _⟩
    · exact a3 l hl
    · exact a3 x hx
  · intro x hx hi
    rcases hm.1 hx with rfl | ⟨hx, _⟩
    · obtain ⟨b1, b2, b3⟩ := a4 l hl hi; exact ⟨by simp only; omega, b2, b3⟩
    · exact a4 x hx hi
  · intro x hx hi
    rcases hm.1 hx with rfl | ⟨hx, _⟩
    · obtain ⟨b1, b2, b3⟩ := a5 l hl hi
      refine ⟨by simp only; omega, b2, ?_⟩
      rw [show (Task.terminate _ ∈ c.queue ↔ _) from b3]
      simp only; omega
    · exact a5 x hx hi
  · exact a6
  · intro n hn
    obtain ⟨x, hx, e⟩ := a7 n hn
    by_cases hxl : x.num = l.num
    · exact ⟨_, hm.2 (.inl rfl), hxl.symm.trans e⟩
    · exact ⟨x, hm.2 (.inr ⟨hx, hxl⟩), e⟩
  · exact a8
  · exact a9
  · intro e he
    obtain ⟨x, hx, e1⟩ := a10 e he
    by_cases hxl : x.num = l.num
    · obtain rfl := nodup_key a2 hx hl hxl
      exact ⟨_, hm.2 (.inl rfl), e1⟩
    · exact ⟨x, hm.2 (.inr ⟨hx, hxl⟩), e1⟩
  · exact a11
  · exact a12
  · exact a13
  · exact a14

/-- The common part of a user's release and the one at the end of the initialize task, in a state where the listener `l` was
replaced by `f l` before. -/
theorem release_eq {c : Conn} (hnd : (c.listeners.map (·.num)).Nodup) {l : Listener} (hl : l ∈ c.listeners) (h0 : 0 < l.refs) :
    c.release l.num = ({ c with
      listeners := c.listeners.map fun x => if x.num = l.num then { x with refs := x.refs - 1 } else x
      queue := if l.refs = 1 then c.queue ++ [.terminate l.num] else c.queue }, []) := by
  unfold Conn.release
  rw [find_of hnd hl]
  simp only [Conn.modify]
  rw [if_neg (by omega)]
  split <;> rfl

theorem map_twice {ls : List Listener} {num : Nat} {f g : Listener → Listener} (hf : ∀ l, (f l).num = l.num) :
    ((ls.map fun l => if l.num = num then f l else l).map fun l => if l.num = num then g l else l) =
    ls.map fun l => if l.num = num then g (f l) else l := by
  rw [List.map_map]
  apply List.map_congr_left
  intro x _
  simp only [Function.comp]
  by_cases e : x.num = num
  · rw [if_pos e, if_pos e, if_pos (by rw [hf]; exact e)]
  · rw [if_neg e, if_neg e, if_neg e]

theorem release_step {c : Conn} (h : SI c) {l : Listener} (hl : l ∈ c.listeners) (hh : 0 < l.held) :
    step c (.release l.num) = ({ c with
      listeners := c.listeners.map fun x => if x.num = l.num then { x with held := x.held - 1, refs := x.refs - 1 } else x
      queue := if l.refs = 1 then c.queue ++ [.terminate l.num] else c.queue }, [.released l.num]) := by
  have hr : 0 < l.refs := by
    by_cases hi : Task.initialize l.num ∈ c.queue
    · have := (h.waiting l hl hi).1; omega
    · have := (h.ready l hl hi).1; omega
  have hnd : (({ c with listeners := c.listeners.map fun x => if x.num = l.num then { x with held := x.held - 1 } else x } : Conn).listeners.map (·.num)).Nodup := by
    show (List.map _ (List.map _ _)).Nodup
    rw [modify_num (by intro l; rfl)]; exact h.numNd
  have hm := @mem_modify c.listeners h.numNd l hl (fun l => { l with held := l.held - 1 })
  have := release_eq hnd (l := { l with held := l.held - 1 }) (hm.2 (.inl rfl)) hr
  simp only [step, Conn.modify]
  rw [this]
  simp only
  rw [map_twice (by intro l; rfl)]

theorem si_release {c : Conn} (h : SI c) {l : Listener} (hl : l ∈ c.listeners) (hh : 0 < l.held) : SI (step c (.release l.num)).1 := by
  rw [release_step h hl hh]
  obtain ⟨a1, a2, a3, a4, a5, a6, a7, a8, a9, a10, a11, a12, a13, a14⟩ := h
  have hm := @mem_modify c.listeners a2 l hl (fun l => { l with held := l.held - 1, refs := l.refs - 1 })
  have hq : ∀ n, Task.initialize n ∈ (if l.refs = 1 then c.queue ++ [.terminate l.num] else c.queue) ↔ .initialize n ∈ c.queue := by
    intro n; split <;> simp
  have hqt : ∀ n, Task.terminate n ∈ (if l.refs = 1 then c.queue ++ [.terminate l.num] else c.queue) ↔ .terminate n ∈ c.queue ∨ (l.refs = 1 ∧ n = l.num) := by
    intro n; split <;> simp [*]
  have hi1 : l.refs = 1 → .initialize l.num ∉ c.queue := by
    intro e hi; have := (a4 l hl hi).1; omega
  constructor
  · simp [a1]
  · show (List.map _ (List.map _ _)).Nodup
    rw [modify_num (by intro l; rfl)]; exact a2
  · intro x hx
    rcases hm.1 hx with rfl | ⟨hx, _⟩
    · exact a3 l hl
    · exact a3 x hx
  · intro x hx hi
    rw [hq] at hi
    simp only [hqt]
    rcases hm.1 hx with rfl | ⟨hx, hne⟩
    · obtain ⟨b1, b2, b3⟩ := a4 l hl hi; exact ⟨by simp only; omega, b2, by rintro (e | ⟨e, _⟩); exact b3 e; exact hi1 e hi⟩
    · obtain ⟨b1, b2, b3⟩ := a4 x hx hi; exact ⟨b1, b2, by rintro (e | ⟨_, e⟩); exact b3 e; exact hne e⟩
  · intro x hx hi
    rw [hq] at hi
    simp only [hqt]
    rcases hm.1 hx with rfl | ⟨hx, hne⟩
    · obtain ⟨b1, b2, b3⟩ := a5 l hl hi
      refine ⟨by simp only; omega, b2, ?_⟩
      rw [show (Task.terminate _ ∈ c.queue ↔ _) from b3]
      simp only [and_true]; omega
    · obtain ⟨b1, b2, b3⟩ := a5 x hx hi
      refine ⟨b1, b2, ?_⟩
      rw [← b3]; simp [hne]
  · split
    · rw [List.nodup_append]
      refine ⟨a6, by simp, ?_⟩
      intro x hx y hy
      simp at hy
      rintro rfl
      rw [hy] at hx
      have hi := hi1 ‹_›
      have := (a5 l hl hi).2.2.1 hx
      omega
    · exact a6
  · intro n hn
    rw [hq, hqt] at hn
    have : ∃ x ∈ c.listeners, x.num = n := by
      rcases hn with hn | hn | ⟨_, rfl⟩
      · exact a7 n (.inl hn)
      · exact a7 n (.inr hn)
      · exact ⟨l, hl, rfl⟩
    obtain ⟨x, hx, e⟩ := this
    by_cases hxl : x.num = l.num
    · exact ⟨_, hm.2 (.inl rfl), hxl.symm.trans e⟩
    · exact ⟨x, hm.2 (.inr ⟨hx, hxl⟩), e⟩
  · exact a8
  · exact a9
  · intro e he
    obtain ⟨x, hx, e1⟩ := a10 e he
    by_cases hxl : x.num = l.num
    · obtain rfl := nodup_key a2 hx hl hxl
      exact ⟨_, hm.2 (.inl rfl), e1⟩
    · exact ⟨x, hm.2 (.inr ⟨hx, hxl⟩), e1⟩
  · exact a11
  · intro n hn; rw [hq] at hn; exact a12 n hn
  · split
    · simp only [inits_append]; simpa [inits] using a13
    · exact a13
  · exact a14

theorem run_init {c : Conn} (h : SI c) {num : Nat} {q : List Task} (hq : c.queue = .initialize num :: q) : ∃ l ∈ c.listeners, l.num = num ∧
    step c .run = ({ c with
      entries := ⟨c.nextId, num, l.handles⟩ :: c.entries
      nextId := c.nextId + 1
      listeners := c.listeners.map fun x => if x.num = num then { x with setId := c.nextId, refs := x.refs - 1 } else x
      queue := if l.held = 0 then q ++ [.terminate num] else q }, [.attached num]) := by
  obtain ⟨l, hl, rfl⟩ := h.tasks num (.inl (by rw [hq]; simp))
  refine ⟨l, hl, rfl, ?_⟩
  have hw := h.waiting l hl (by rw [hq]; simp)
  simp only [step, hq, Conn.runTask]
  rw [show ({ c with queue := q } : Conn).find l.num = some l from find_of h.numNd hl]
  simp only [Conn.modify]
  have hnd : (({ c with
      entries := ⟨c.nextId, l.num, l.handles⟩ :: c.entries
      nextId := c.nextId + 1
      queue := q
      listeners := c.listeners.map fun x => if x.num = l.num then { x with setId := c.nextId } else x } : Conn).listeners.map (·.num)).Nodup := by
    show (List.map _ (List.map _ _)).Nodup
    rw [modify_num (by intro l; rfl)]; exact h.numNd
  have hm := @mem_modify c.listeners h.numNd l hl (fun l => { l with setId := c.nextId })
  have := release_eq hnd (l := { l with setId := c.nextId }) (hm.2 (.inl rfl)) (by simp only; omega)
  simp only at this
  rw [this]
  simp only
  rw [map_twice (by intro l; rfl)]
  have : (l.refs = 1) = (l.held = 0) := by rw [hw.1]; simp
  simp only [this]

theorem si_run_init {c : Conn} (h : SI c) (hf : c.firing = none) {num : Nat} {q : List Task} (hq : c.queue = .initialize num :: q) : SI (step c .run).1 := by
  obtain ⟨l, hl, rfl, hs⟩ := run_init h hq
  rw [hs]
  obtain ⟨a1, a2, a3, a4, a5, a6, a7, a8, a9, a10, a11, a12, a13, a14⟩ := h
  have hw := a4 l hl (by rw [hq]; simp)
  have hm := @mem_modify c.listeners a2 l hl (fun l => { l with setId := c.nextId, refs := l.refs - 1 })
  have hnq : Task.initialize l.num ∉ q := by rw [hq] at a6; exact (List.nodup_cons.1 a6).1
  have hqi : ∀ n, Task.initialize n ∈ (if l.held = 0 then q ++ [.terminate l.num] else q) ↔ (.initialize n ∈ c.queue ∧ n ≠ l.num) := by
    intro n
    have : Task.initialize n ∈ (if l.held = 0 then q ++ [.terminate l.num] else q) ↔ .initialize n ∈ q := by split <;> simp
    rw [this, hq]
    constructor
    · intro hn; exact ⟨List.mem_cons_of_mem _ hn, by rintro rfl; exact hnq hn⟩
    · rintro ⟨hn, hne⟩
      rcases List.mem_cons.1 hn with e | hn
      · injection e; contradiction
      · exact hn
  have hqt : ∀ n, Task.terminate n ∈ (if l.held = 0 then q ++ [.terminate l.num] else q) ↔ .terminate n ∈ c.queue ∨ (l.held = 0 ∧ n = l.num) := by
    intro n; rw [hq]; split <;> simp [*]
  have hord := a13
  rw [hq] at hord
  have hord2 : ∀ n, .initialize n ∈ q → l.num < n := by
    intro n hn
    have : inits (Task.initialize l.num :: q) = l.num :: inits q := rfl
    rw [this, List.pairwise_cons] at hord
    exact hord.1 n (mem_inits.2 hn)
  constructor
  · simp [a1]
  · show (List.map _ (List.map _ _)).Nodup
    rw [modify_num (by intro l; rfl)]; exact a2
  · intro x hx
    rcases hm.1 hx with rfl | ⟨hx, _⟩
    · exact a3 l hl
    · exact a3 x hx
  · intro x hx hi
    rw [hqi] at hi
    simp only [hqt, List.mem_cons]
    rcases hm.1 hx with rfl | ⟨hx, hne⟩
    · exact absurd rfl hi.2
    · obtain ⟨b1, b2, b3⟩ := a4 x hx hi.1
      refine ⟨b1, ?_, by rintro (e | ⟨_, e⟩); exact b3 e; exact hne e⟩
      rintro e (rfl | he)
      · exact Ne.symm hne
      · exact b2 e he
  · intro x hx hi
    rw [hqi] at hi
    simp only [hqt, List.mem_cons]
    rcases hm.1 hx with rfl | ⟨hx, hne⟩
    · refine ⟨by simp only; omega, .inl rfl, ?_⟩
      have := hw.2.2
      simp [this]
    · obtain ⟨b1, b2, b3⟩ := a5 x hx (fun e => hi ⟨e, hne⟩)
      refine ⟨b1, .inr b2, ?_⟩
      rw [← b3]; simp [hne]
  · have hqn : q.Nodup := by rw [hq] at a6; exact (List.nodup_cons.1 a6).2
    split
    · rw [List.nodup_append]
      refine ⟨hqn, by simp, ?_⟩
      intro x hx y hy
      simp at hy
      rintro rfl
      rw [hy] at hx
      exact hw.2.2 (by rw [hq]; exact List.mem_cons_of_mem _ hx)
    · exact hqn
  · intro n hn
    rw [hqi, hqt] at hn
    have : ∃ x ∈ c.listeners, x.num = n := by
      rcases hn with hn | hn | ⟨_, rfl⟩
      · exact a7 n (.inl hn.1)
      · exact a7 n (.inr hn)
      · exact ⟨l, hl, rfl⟩
    obtain ⟨x, hx, e⟩ := this
    by_cases hxl : x.num = l.num
    · exact ⟨_, hm.2 (.inl rfl), hxl.symm.trans e⟩
    · exact ⟨x, hm.2 (.inr ⟨hx, hxl⟩), e⟩
  · simp only [List.map_cons, List.nodup_cons]
    refine ⟨?_, a8⟩
    intro hx
    obtain ⟨e, he, e1⟩ := List.mem_map.1 hx
    have := a9 e he; omega
  · intro e he
    simp only [List.mem_cons] at he
    rcases he with rfl | he
    · simp
    · have := a9 e he; simp only; omega
  · intro e he
    simp only [List.mem_cons] at he
    rcases he with rfl | he
    · exact ⟨_, hm.2 (.inl rfl), rfl⟩
    · obtain ⟨x, hx, e1⟩ := a10 e he
      by_cases hxl : x.num = l.num
      · exact absurd (by rw [e1]; exact hxl) (hw.2.1 e he)
      · exact ⟨x, hm.2 (.inr ⟨hx, hxl⟩), e1⟩
  · simp only [List.map_cons, List.pairwise_cons]
    refine ⟨?_, a11⟩
    intro n hn
    obtain ⟨e, he, rfl⟩ := List.mem_map.1 hn
    exact a12 l.num (by rw [hq]; simp) e he
  · intro n hn e he
    rw [hqi] at hn
    simp only [List.mem_cons] at he
    rcases he with rfl | he
    · refine hord2 n ?_
      have := hn.1
      rw [hq] at this
      rcases List.mem_cons.1 this with e | e
      · injection e with e; exact absurd e hn.2
      · exact e
    · exact a12 n hn.1 e he
  · have : inits (Task.initialize l.num :: q) = l.num :: inits q := rfl
    rw [this, List.pairwise_cons] at hord
    split
    · simp only [inits_append]; simpa [inits] using hord.2
    · exact hord.2
  · simp only; intro e; exact absurd hf e

theorem run_term {c : Conn} (h : SI c) {num : Nat} {q : List Task} (hq : c.queue = .terminate num :: q) : ∃ l ∈ c.listeners, l.num = num ∧ l.held = 0 ∧
    .initialize num ∉ c.queue ∧
    step c .run = ({ c with
      refs := c.refs - 1
      entries := removeEntry l.setId c.entries
      listeners := c.listeners.filter (·.num ≠ num)
      queue := q }, (if c.refs = 1 then [.gone] else []) ++ [.terminated num]) := by
  obtain ⟨l, hl, rfl⟩ := h.tasks num (.inr (by rw [hq]; simp))
  have hni : Task.initialize l.num ∉ c.queue := by
    intro hi
    exact (h.waiting l hl hi).2.2 (by rw [hq]; simp)
  have hr := h.ready l hl hni
  refine ⟨l, hl, rfl, hr.2.2.1 (by rw [hq]; simp), hni, ?_⟩
  simp only [step, hq, Conn.runTask]
  rw [show ({ c with queue := q } : Conn).find l.num = some l from find_of h.numNd hl]
  simp only [Conn.destroy, Conn.releaseConn]
  have : c.refs ≠ 0 := by
    rw [h.refs]
    have := List.length_pos_of_mem hl
    omega
  rw [if_neg this]

theorem length_filter_num {ls : List Listener} (h : (ls.map (·.num)).Nodup) {l : Listener} (hl : l ∈ ls) :
    (ls.filter (·.num ≠ l.num)).length + 1 = ls.length := by
  induction ls with
  | nil => cases hl
  | cons x ls ih =>
    simp only [List.map_cons, List.nodup_cons, List.mem_map, not_exists, not_and] at h
    rcases List.mem_cons.1 hl with rfl | hl'
    · rw [List.filter_cons_of_neg (by simp)]
      rw [List.filter_eq_self.2]
      · rfl
      · intro y hy; simpa using h.1 y hy
    · rw [List.filter_cons_of_pos (by simpa using fun e => h.1 l hl' e.symm)]
      simp only [List.length_cons]
      rw [ih h.2 hl']

theorem si_run_term {c : Conn} (h : SI c) {num : Nat} {q : List Task} (hq : c.queue = .terminate num :: q) : SI (step c .run).1 := by
  obtain ⟨l, hl, rfl, h0, hni, hs⟩ := run_term h hq
  rw [hs]
  obtain ⟨a1, a2, a3, a4, a5, a6, a7, a8, a9, a10, a11, a12, a13, a14⟩ := h
  have hr := a5 l hl hni
  have hm : ∀ x, x ∈ c.listeners.filter (·.num ≠ l.num) ↔ x ∈ c.listeners ∧ x.num ≠ l.num := by intro x; simp [List.mem_filter]
  have he : ∀ e, e ∈ removeEntry l.setId c.entries ↔ e ∈ c.entries ∧ e.num ≠ l.num := by
    intro e
    rw [mem_removeEntry a8]
    constructor
    · rintro ⟨h1, h2⟩
      refine ⟨h1, fun e1 => h2 ?_⟩
      obtain ⟨x, hx, rfl⟩ := a10 e h1
      obtain rfl := nodup_key a2 hx hl e1
      rfl
    · rintro ⟨h1, h2⟩
      refine ⟨h1, fun e1 => h2 ?_⟩
      rw [nodup_key a8 h1 hr.2.1 e1]
  have hqi : ∀ n, Task.initialize n ∈ q ↔ .initialize n ∈ c.queue := by intro n; rw [hq]; simp
  have hqt : ∀ n, n ≠ l.num → (Task.terminate n ∈ q ↔ .terminate n ∈ c.queue) := by intro n hn; rw [hq]; simp [hn]
  have hnt : Task.terminate l.num ∉ q := by rw [hq] at a6; exact (List.nodup_cons.1 a6).1
  constructor
  · have := length_filter_num a2 hl
    simp only
    omega
  · exact (List.filter_sublist.map _).nodup a2
  · intro x hx; exact a3 x ((hm x).1 hx).1
  · intro x hx hi
    obtain ⟨hx, hne⟩ := (hm x).1 hx
    simp only at hi ⊢
    rw [hqi] at hi
    obtain ⟨b1, b2, b3⟩ := a4 x hx hi
    exact ⟨b1, fun e hx => b2 e ((he e).1 hx).1, by rw [hqt _ hne]; exact b3⟩
  · intro x hx hi
    obtain ⟨hx, hne⟩ := (hm x).1 hx
    simp only at hi ⊢
    rw [hqi] at hi
    obtain ⟨b1, b2, b3⟩ := a5 x hx hi
    exact ⟨b1, (he _).2 ⟨b2, hne⟩, by rw [hqt _ hne]; exact b3⟩
  · rw [hq] at a6; exact (List.nodup_cons.1 a6).2
  · intro n hn
    simp only at hn
    have hne : n ≠ l.num := by
      rintro rfl
      rcases hn with hn | hn
      · exact hni ((hqi _).1 hn)
      · exact hnt hn
    obtain ⟨x, hx, e⟩ := a7 n (hn.imp (hqi n).1 (hqt n hne).1)
    exact ⟨x, (hm x).2 ⟨hx, by rw [e]; exact hne⟩, e⟩
  · exact ((removeEntry_sub _ _).map _).nodup a8
  · intro e hx; exact a9 e ((he e).1 hx).1
  · intro e hx
    obtain ⟨h1, h2⟩ := (he e).1 hx
    obtain ⟨x, hx, e1⟩ := a10 e h1
    exact ⟨x, (hm x).2 ⟨hx, fun e2 => h2 (by rw [e1]; exact e2)⟩, e1⟩
  · exact a11.sublist ((removeEntry_sub _ _).map _)
  · intro n hn e hx
    exact a12 n ((hqi n).1 hn) e ((he e).1 hx).1
  · rw [hq] at a13; exact a13
  · exact a14

theorem si_step {c : Conn} (h : SI c) {e : Event} (hen : Enabled c e) : SI (step c e).1 := by
  cases e with
  | new hs => exact si_new h hs
  | acquire n => obtain ⟨l, hl, rfl, h0⟩ := hen; exact si_acquire h hl h0
  | release n => obtain ⟨l, hl, rfl, h0⟩ := hen; exact si_release h hl h0
  | run =>
    obtain ⟨hq, hf⟩ := hen
    match hc : c.queue with
    | [] => exact absurd hc hq
    | .initialize n :: q => exact si_run_init h hf hc
    | .terminate n :: q => exact si_run_term h hc
  | next =>
    unfold step
    obtain ⟨a1, a2, a3, a4, a5, a6, a7, a8, a9, a10, a11, a12, a13, a14⟩ := h
    match hf : c.firing with
    | none => exact absurd hf hen
    | some (e, []) => exact ⟨a1, a2, a3, a4, a5, a6, a7, a8, a9, a10, a11, a12, a13, by simp⟩
    | some (e, s :: rest) => exact ⟨a1, a2, a3, a4, a5, a6, a7, a8, a9, a10, a11, a12, a13, fun _ => a14 (by rw [hf]; simp)⟩
  | acquireConn =>
    unfold step
    obtain ⟨a1, a2, a3, a4, a5, a6, a7, a8, a9, a10, a11, a12, a13, a14⟩ := h
    exact ⟨by simp only; omega, a2, a3, a4, a5, a6, a7, a8, a9, a10, a11, a12, a13, a14⟩
  | releaseConn =>
    unfold step Conn.releaseConn
    obtain ⟨a1, a2, a3, a4, a5, a6, a7, a8, a9, a10, a11, a12, a13, a14⟩ := h
    have : 0 < c.held := hen
    exact ⟨by simp only; omega, a2, a3, a4, a5, a6, a7, a8, a9, a10, a11, a12, a13, a14⟩
  | connect =>
    unfold step
    obtain ⟨a1, a2, a3, a4, a5, a6, a7, a8, a9, a10, a11, a12, a13, a14⟩ := h
    exact ⟨by simp only; omega, a2, a3, a4, a5, a6, a7, a8, a9, a10, a11, a12, a13, fun e => by have := a14 e; simp only; omega⟩
  | offline =>
    unfold step Conn.releaseConn
    obtain ⟨a1, a2, a3, a4, a5, a6, a7, a8, a9, a10, a11, a12, a13, a14⟩ := h
    have : 0 < c.own := hen.1
    exact ⟨by simp only; omega, a2, a3, a4, a5, a6, a7, a8, a9, a10, a11, a12, a13, fun e => absurd hen.2 e⟩
  | fire ev =>
    unfold step
    obtain ⟨a1, a2, a3, a4, a5, a6, a7, a8, a9, a10, a11, a12, a13, a14⟩ := h
    exact ⟨a1, a2, a3, a4, a5, a6, a7, a8, a9, a10, a11, a12, a13, fun _ => hen.1⟩

end Mqtt.Listener311
