import Verif.Lemmas.Listener311

/-!
The log of an MQTT 3.1.1 connection and its listeners (C86).
-/
namespace Mqtt.Listener311

theorem live_snoc (log : List Entry) (e : Entry) : live (log ++ [e]) = match e with
    | .attached n => n :: live log
    | .terminated n => (live log).filter (· ≠ n)
    | _ => live log := by
  unfold live
  rw [List.foldl_append]
  rfl

theorem calls_snoc (log : List Entry) (e : Entry) : calls (log ++ [e]) = match e with
    | .called n v => calls log ++ [(n, v)]
    | _ => calls log := by
  unfold calls
  rw [List.filterMap_append]
  cases e <;> simp

theorem handlers_append {log post : List Entry} {n : Nat} (h : ∃ hs, .created n hs ∈ log) : handlers (log ++ post) n = handlers log n := by
  unfold handlers
  rw [List.findSome?_append]
  obtain ⟨hs, h⟩ := h
  cases hf : log.findSome? (handlersIn n) with
  | none =>
    have := List.findSome?_eq_none_iff.1 hf _ h
    simp [handlersIn] at this
  | some x => rfl

theorem handlers_created {log : List Entry} {n : Nat} {hs : List Kind} (h : ∀ hs, .created n hs ∉ log) : handlers (log ++ [.created n hs]) n = hs := by
  unfold handlers
  rw [List.findSome?_append]
  have : log.findSome? (handlersIn n) = none := by
    rw [List.findSome?_eq_none_iff]
    intro e he
    cases e with
    | created m hs' =>
      simp only [handlersIn]
      rw [if_neg]
      rintro rfl
      exact h _ he
    | _ => rfl
  rw [this]
  simp [handlersIn]

structure LI (c : Conn) (log : List Entry) : Prop where
  live : live log = c.entries.map (·.num)
  hand : ∀ l ∈ c.listeners, handlers log l.num = l.handles
  held : ∀ l ∈ c.listeners, l.held + log.count (.released l.num) = 1 + log.count (.acquired l.num)
  made : ∀ n, n < c.nextNum → ∃ hs, .created n hs ∈ log
  cre : ∀ n hs, .created n hs ∈ log → n < c.nextNum ∧ ((∃ l ∈ c.listeners, l.num = n) ∨ .terminated n ∈ log)
  att : ∀ n, .attached n ∈ log → n < c.nextNum ∧ .initialize n ∉ c.queue
  att' : ∀ l ∈ c.listeners, .initialize l.num ∉ c.queue → .attached l.num ∈ log
  term : ∀ n, .terminated n ∈ log → n < c.nextNum ∧ (∀ l ∈ c.listeners, l.num ≠ n) ∧ .attached n ∈ log ∧
    log.count (.released n) = 1 + log.count (.acquired n)
  new : ∀ n, c.nextNum ≤ n → log.count (.released n) = 0 ∧ log.count (.acquired n) = 0
  valid : .invalid ∉ log
  gone : .gone ∈ log ↔ c.refs = 0
  conn : c.held + c.own + log.count .connReleased + log.count .offline = 1 + log.count .connAcquired + log.count .connect

theorem li_init : LI {} [] := by
  constructor <;> simp [Listener311.live]

/-- Entries that say nothing about listeners and references. -/
def Plain : Entry → Prop
  | .event _ | .called _ _ | .finished => True
  | _ => False

theorem li_plain {c c' : Conn} {log : List Entry} (hs : SI c) (h : LI c log) {e : Entry} (he : Plain e) (hc : c' = { c with firing := c'.firing }) : LI c' (log ++ [e]) := by
  rw [hc]
  obtain ⟨a1, a2, a3, a4, a5, a6, a7, a8, a9, a10, a11, a12⟩ := h
  have hlt := hs.numLt
  have hh := fun l hl => @handlers_append log [e] l.num (a4 _ (hlt l hl))
  have hlive : Listener311.live (log ++ [e]) = Listener311.live log := by rw [live_snoc]; cases e <;> first | rfl | exact False.elim he
  cases e <;> first | exact False.elim he | (constructor <;> simp_all <;> assumption)

theorem li_new {c : Conn} {log : List Entry} (hs : SI c) (h : LI c log) (hen : 0 < c.held) (ks : List Kind) : LI (step c (.new ks)).1 (log ++ (step c (.new ks)).2) := by
  unfold step
  obtain ⟨a1, a2, a3, a4, a5, a6, a7, a8, a9, a10, a11, a12⟩ := h
  have hlt := hs.numLt
  have hh := fun l hl => @handlers_append log [.created c.nextNum ks] l.num (a4 _ (hlt l hl))
  have hn := @handlers_created log c.nextNum ks (fun hs hx => by have := (a5 _ _ hx).1; omega)
  have h9 := a9 c.nextNum (Nat.le_refl _)
  constructor
  · simp [live_snoc, a1]
  · intro l hl
    simp only [List.mem_append, List.mem_singleton] at hl
    rcases hl with hl | rfl
    · rw [hh l hl]; exact a2 l hl
    · exact hn
  · intro l hl
    simp only [List.mem_append, List.mem_singleton] at hl
    rcases hl with hl | rfl
    · simpa using a3 l hl
    · simp [h9]
  · intro n hn
    by_cases e : n = c.nextNum
    · exact ⟨ks, by simp [e]⟩
    · simp only at hn
      obtain ⟨x, hx⟩ := a4 n (by omega)
      exact ⟨x, by simp [hx]⟩
  · intro n x hx
    simp only [List.mem_append, List.mem_singleton] at hx
    rcases hx with hx | hx
    · obtain ⟨b1, b2⟩ := a5 n x hx
      refine ⟨by simp only; omega, ?_⟩
      rcases b2 with ⟨l, hl, e⟩ | b2
      · exact .inl ⟨l, by simp [hl], e⟩
      · exact .inr (by simp [b2])
    · injection hx with e _
      exact ⟨by simp only; omega, .inl ⟨_, List.mem_append_right _ (List.mem_singleton.2 rfl), e.symm⟩⟩
  · intro n hx
    simp only [List.mem_append, List.mem_singleton, reduceCtorEq, or_false] at hx
    obtain ⟨b1, b2⟩ := a6 n hx
    refine ⟨by simp only; omega, ?_⟩
    simp only [List.mem_append, List.mem_singleton, not_or]
    exact ⟨b2, by intro e; injection e; omega⟩
  · intro l hl hi
    simp only [List.mem_append, List.mem_singleton, not_or] at hl hi ⊢
    rcases hl with hl | rfl
    · exact .inl (a7 l hl hi.1)
    · simp at hi
  · intro n hx
    simp only [List.mem_append, List.mem_singleton, reduceCtorEq, or_false] at hx ⊢
    obtain ⟨b1, b2, b3, b4⟩ := a8 n hx
    refine ⟨by omega, ?_, b3, by simpa using b4⟩
    rintro l (hl | rfl)
    · exact b2 l hl
    · simp only; omega
  · intro n hn
    simp only at hn
    simpa using a9 n (by omega)
  · simpa using a10
  · simp only [List.mem_append, List.mem_singleton, reduceCtorEq, or_false, a11]
    have := hs.refs
    constructor
    · intro e; omega
    · intro e; cases e
  · simpa using a12

theorem li_acquire {c : Conn} {log : List Entry} (hs : SI c) (h : LI c log) {l : Listener} (hl : l ∈ c.listeners) :
    LI (step c (.acquire l.num)).1 (log ++ (step c (.acquire l.num)).2) := by
  unfold step Conn.modify
  obtain ⟨a1, a2, a3, a4, a5, a6, a7, a8, a9, a10, a11, a12⟩ := h
  have hlt := hs.numLt
  have hm := @mem_modify c.listeners hs.numNd l hl (fun l => { l with refs := l.refs + 1, held := l.held + 1 })
  have hh := fun x hx => @handlers_append log [.acquired l.num] x.num (a4 _ (hlt x hx))
  constructor
  · simp [live_snoc, a1]
  · intro x hx
    rcases hm.1 hx with rfl | ⟨hx, _⟩
    · rw [← a2 l hl]; exact hh l hl
    · rw [hh x hx]; exact a2 x hx
  · intro x hx
    rcases hm.1 hx with rfl | ⟨hx, hne⟩
    · have := a3 l hl
      simp; omega
    · have := a3 x hx
      simp [Ne.symm hne]; omega
  · intro n hn
    obtain ⟨x, hx⟩ := a4 n hn
    exact ⟨x, by simp [hx]⟩
  · intro n ks hx
    obtain ⟨b1, b2⟩ := a5 n ks (by simpa using hx)
    refine ⟨b1, ?_⟩
    rcases b2 with ⟨x, hx, e⟩ | b2
    · by_cases hxl : x.num = l.num
      · exact .inl ⟨_, hm.2 (.inl rfl), hxl.symm.trans e⟩
      · exact .inl ⟨x, hm.2 (.inr ⟨hx, hxl⟩), e⟩
    · exact .inr (by simp [b2])
  · intro n hx; exact a6 n (by simpa using hx)
  · intro x hx hi
    rcases hm.1 hx with rfl | ⟨hx, _⟩
    · simpa using a7 l hl hi
    · simpa using a7 x hx hi
  · intro n hx
    obtain ⟨b1, b2, b3, b4⟩ := a8 n (by simpa using hx)
    have hne := b2 l hl
    refine ⟨b1, ?_, by simp [b3], by simp [b4, hne]⟩
    intro x hx
    rcases hm.1 hx with rfl | ⟨hx, _⟩
    · exact hne
    · exact b2 x hx
  · intro n hn
    have := hlt l hl
    simp only at hn
    have hne : l.num ≠ n := by omega
    simpa [hne] using a9 n hn
  · simpa using a10
  · simpa using a11
  · simpa using a12

theorem li_release {c : Conn} {log : List Entry} (hs : SI c) (h : LI c log) {l : Listener} (hl : l ∈ c.listeners) (h0 : 0 < l.held) :
    LI (step c (.release l.num)).1 (log ++ (step c (.release l.num)).2) := by
  rw [release_step hs hl h0]
  obtain ⟨a1, a2, a3, a4, a5, a6, a7, a8, a9, a10, a11, a12⟩ := h
  have hlt := hs.numLt
  have hm := @mem_modify c.listeners hs.numNd l hl (fun l => { l with held := l.held - 1, refs := l.refs - 1 })
  have hh := fun x hx => @handlers_append log [.released l.num] x.num (a4 _ (hlt x hx))
  have hq : ∀ n, Task.initialize n ∈ (if l.refs = 1 then c.queue ++ [.terminate l.num] else c.queue) ↔ .initialize n ∈ c.queue := by
    intro n; split <;> simp
  constructor
  · simp [live_snoc, a1]
  · intro x hx
    rcases hm.1 hx with rfl | ⟨hx, _⟩
    · rw [← a2 l hl]; exact hh l hl
    · simp only; rw [hh x hx]; exact a2 x hx
  · intro x hx
    rcases hm.1 hx with rfl | ⟨hx, hne⟩
    · have := a3 l hl
      simp; omega
    · have := a3 x hx
      simp [Ne.symm hne]; omega
  · intro n hn
    obtain ⟨x, hx⟩ := a4 n hn
    exact ⟨x, by simp [hx]⟩
  · intro n ks hx
    obtain ⟨b1, b2⟩ := a5 n ks (by simpa using hx)
    refine ⟨b1, ?_⟩
    rcases b2 with ⟨x, hx, e⟩ | b2
    · by_cases hxl : x.num = l.num
      · exact .inl ⟨_, hm.2 (.inl rfl), hxl.symm.trans e⟩
      · exact .inl ⟨x, hm.2 (.inr ⟨hx, hxl⟩), e⟩
    · exact .inr (by simp [b2])
  · intro n hx
    simp only [hq]
    exact a6 n (by simpa using hx)
  · intro x hx hi
    simp only [hq] at hi
    rcases hm.1 hx with rfl | ⟨hx, _⟩
    · simpa using a7 l hl hi
    · simpa using a7 x hx hi
  · intro n hx
    obtain ⟨b1, b2, b3, b4⟩ := a8 n (by simpa using hx)
    have hne := b2 l hl
    refine ⟨b1, ?_, by simp [b3], by simp [b4, hne]⟩
    intro x hx
    rcases hm.1 hx with rfl | ⟨hx, _⟩
    · exact hne
    · exact b2 x hx
  · intro n hn
    have := hlt l hl
    simp only at hn
    have hne : l.num ≠ n := by omega
    simpa [hne] using a9 n hn
  · simpa using a10
  · simpa using a11
  · simpa using a12

theorem li_attach {c : Conn} {log : List Entry} (hs : SI c) (h : LI c log) {num : Nat} {q : List Task} (hqc : c.queue = .initialize num :: q) :
    LI (step c .run).1 (log ++ (step c .run).2) := by
  obtain ⟨l, hl, rfl, he⟩ := run_init hs hqc
  rw [he]
  obtain ⟨a1, a2, a3, a4, a5, a6, a7, a8, a9, a10, a11, a12⟩ := h
  have hlt := hs.numLt
  have hm := @mem_modify c.listeners hs.numNd l hl (fun x => { x with setId := c.nextId, refs := x.refs - 1 })
  have hh := fun x hx => @handlers_append log [.attached l.num] x.num (a4 _ (hlt x hx))
  have hnd := hs.qNd
  rw [hqc, List.nodup_cons] at hnd
  have hq : ∀ n, Task.initialize n ∈ (if l.held = 0 then q ++ [.terminate l.num] else q) ↔ .initialize n ∈ c.queue ∧ n ≠ l.num := by
    intro n
    have : Task.initialize n ∈ (if l.held = 0 then q ++ [.terminate l.num] else q) ↔ .initialize n ∈ q := by split <;> simp
    rw [this, hqc]
    constructor
    · intro hn; exact ⟨List.mem_cons_of_mem _ hn, by rintro rfl; exact hnd.1 hn⟩
    · rintro ⟨hn, hne⟩
      rcases List.mem_cons.1 hn with e | hn
      · injection e; contradiction
      · exact hn
  constructor
  · simp [live_snoc, a1]
  · intro x hx
    rcases hm.1 hx with rfl | ⟨hx, _⟩
    · rw [← a2 l hl]; exact hh l hl
    · simp only; rw [hh x hx]; exact a2 x hx
  · intro x hx
    rcases hm.1 hx with rfl | ⟨hx, hne⟩
    · simpa using a3 l hl
    · simpa using a3 x hx
  · intro n hn
    obtain ⟨x, hx⟩ := a4 n hn
    exact ⟨x, by simp [hx]⟩
  · intro n ks hx
    obtain ⟨b1, b2⟩ := a5 n ks (by simpa using hx)
    refine ⟨b1, ?_⟩
    rcases b2 with ⟨x, hx, e⟩ | b2
    · by_cases hxl : x.num = l.num
      · exact .inl ⟨_, hm.2 (.inl rfl), hxl.symm.trans e⟩
      · exact .inl ⟨x, hm.2 (.inr ⟨hx, hxl⟩), e⟩
    · exact .inr (by simp [b2])
  · intro n hx
    simp only [hq]
    simp only [List.mem_append, List.mem_singleton, Entry.attached.injEq] at hx
    rcases hx with hx | rfl
    · have := a6 n hx
      exact ⟨this.1, fun e => this.2 e.1⟩
    · exact ⟨hlt l hl, fun e => e.2 rfl⟩
  · intro x hx hi
    simp only [hq] at hi
    rcases hm.1 hx with rfl | ⟨hx, hne⟩
    · simp
    · have := a7 x hx (fun e => hi ⟨e, hne⟩)
      simp [this]
  · intro n hx
    obtain ⟨b1, b2, b3, b4⟩ := a8 n (by simpa using hx)
    refine ⟨b1, ?_, by simp [b3], by simp [b4]⟩
    intro x hx
    rcases hm.1 hx with rfl | ⟨hx, _⟩
    · exact b2 l hl
    · exact b2 x hx
  · intro n hn
    simpa using a9 n hn
  · simpa using a10
  · simpa using a11
  · simpa using a12

theorem li_terminate {c : Conn} {log : List Entry} (hs : SI c) (h : LI c log) {num : Nat} {q : List Task} (hqc : c.queue = .terminate num :: q) :
    LI (step c .run).1 (log ++ (step c .run).2) := by
  obtain ⟨l, hl, rfl, h0, hni, he⟩ := run_term hs hqc
  rw [he]
  obtain ⟨a1, a2, a3, a4, a5, a6, a7, a8, a9, a10, a11, a12⟩ := h
  have hlt := hs.numLt
  have hr := hs.ready l hl hni
  generalize hg : (if c.refs = 1 then [Entry.gone] else []) = g
  have hgm : ∀ e, e ∈ g → e = .gone := by
    intro e hx; rw [← hg] at hx; split at hx <;> simp at hx; exact hx
  have hgc : ∀ e, e ≠ .gone → g.count e = 0 := by
    intro e hne; rw [List.count_eq_zero]; exact fun hx => hne (hgm e hx)
  have hm : ∀ x, x ∈ c.listeners.filter (·.num ≠ l.num) ↔ x ∈ c.listeners ∧ x.num ≠ l.num := by intro x; simp [List.mem_filter]
  have hh := fun x hx => @handlers_append log (g ++ [Entry.terminated l.num]) x.num (a4 _ (hlt x hx))
  have hqi : ∀ n, Task.initialize n ∈ q ↔ .initialize n ∈ c.queue := by intro n; rw [hqc]; simp
  have hcount : ∀ e : Entry, e ≠ .gone → e ≠ .terminated l.num → (log ++ (g ++ [Entry.terminated l.num])).count e = log.count e := by
    intro e h1 h2
    rw [List.count_append, List.count_append, hgc e h1]
    simp [Ne.symm h2]
  have hmem : ∀ e : Entry, e ≠ .gone → e ≠ .terminated l.num → (e ∈ log ++ (g ++ [.terminated l.num]) ↔ e ∈ log) := by
    intro e h1 h2
    simp only [List.mem_append, List.mem_singleton, h2, or_false]
    constructor
    · rintro (h | h)
      · exact h
      · exact absurd (hgm e h) h1
    · exact .inl
  constructor
  · rw [← List.append_assoc, live_snoc]
    have : Listener311.live (log ++ g) = Listener311.live log := by
      rw [← hg]; split
      · rw [live_snoc]
      · rw [List.append_nil]
    simp only [this, a1]
    have hidnd := hs.idNd
    have hent := hs.ent
    have hnd := hs.sorted
    have hmemE := hr.2.1
    have hnum : ∀ e ∈ c.entries, (e.id = l.setId ↔ e.num = l.num) := by
      intro e hx
      constructor
      · intro e1; rw [nodup_key hidnd hx hmemE e1]
      · intro e1
        obtain ⟨x, hxl, rfl⟩ := hent e hx
        rw [nodup_key hs.numNd hxl hl e1]
    clear hmemE hent hr he
    generalize c.entries = es at *
    clear hm hh a1
    induction es with
    | nil => rfl
    | cons e es ih =>
      simp only [List.map_cons, List.nodup_cons, List.pairwise_cons] at hidnd hnd
      unfold removeEntry
      have h1 := hnum e (by simp)
      by_cases hid : e.id = l.setId
      · rw [if_pos hid, List.map_cons, List.filter_cons_of_neg (by simp [h1.1 hid])]
        rw [List.filter_eq_self]
        intro n hn
        have := hnd.1 n hn
        rw [h1.1 hid] at this
        simp only [ne_eq, decide_eq_true_eq]; omega
      · rw [if_neg hid, List.map_cons, List.map_cons, List.filter_cons_of_pos (by simpa using fun e1 => hid (h1.2 e1))]
        rw [ih hidnd.2 hnd.2 (fun e hx => hnum e (by simp [hx]))]
  · intro x hx
    rw [hh x ((hm x).1 hx).1]; exact a2 x ((hm x).1 hx).1
  · intro x hx
    rw [hcount (.released _) (by simp) (by simp), hcount (.acquired _) (by simp) (by simp)]; exact a3 x ((hm x).1 hx).1
  · intro n hn
    obtain ⟨x, hx⟩ := a4 n hn
    exact ⟨x, by simp [hx]⟩
  · intro n ks hx
    rw [hmem _ (by simp) (by simp)] at hx
    obtain ⟨b1, b2⟩ := a5 n ks hx
    refine ⟨b1, ?_⟩
    rcases b2 with ⟨x, hx, e⟩ | b2
    · by_cases hxl : x.num = l.num
      · exact .inr (by simp [← e, hxl])
      · exact .inl ⟨x, (hm x).2 ⟨hx, hxl⟩, e⟩
    · exact .inr (by simp [b2])
  · intro n hx
    rw [hmem _ (by simp) (by simp)] at hx
    simp only [hqi]
    exact a6 n hx
  · intro x hx hi
    simp only [hqi] at hi
    rw [hmem _ (by simp) (by simp)]
    exact a7 x ((hm x).1 hx).1 hi
  · intro n hx
    rw [hcount (.released _) (by simp) (by simp), hcount (.acquired _) (by simp) (by simp), hmem (.attached n) (by simp) (by simp)]
    by_cases hn : n = l.num
    · subst hn
      refine ⟨hlt l hl, fun x hx => ((hm x).1 hx).2, a7 l hl hni, ?_⟩
      have := a3 l hl
      omega
    · rw [hmem _ (by simp) (by simp [hn])] at hx
      obtain ⟨b1, b2, b3, b4⟩ := a8 n hx
      exact ⟨b1, fun x hx => b2 x ((hm x).1 hx).1, b3, b4⟩
  · intro n hn
    rw [hcount (.released _) (by simp) (by simp), hcount (.acquired _) (by simp) (by simp)]
    exact a9 n hn
  · rw [hmem _ (by simp) (by simp)]; exact a10
  · have hpos : c.refs ≠ 0 := by
      rw [hs.refs]
      have := List.length_pos_of_mem hl
      omega
    have hng : Entry.gone ∉ log := fun e => hpos (a11.1 e)
    simp only [List.mem_append, List.mem_singleton, reduceCtorEq, or_false, hng, false_or]
    rw [← hg]
    split <;> simp <;> omega
  · simp only [hcount _ (by simp : Entry.connReleased ≠ .gone) (by simp), hcount _ (by simp : Entry.offline ≠ .gone) (by simp),
      hcount _ (by simp : Entry.connAcquired ≠ .gone) (by simp), hcount _ (by simp : Entry.connect ≠ .gone) (by simp)]
    exact a12

/-- A reference of the connection is acquired or released. -/
theorem li_conn {c c' : Conn} {log : List Entry} (hs : SI c) (h : LI c log) {out : List Entry}
    (hout : ∀ e ∈ out, e = .connAcquired ∨ e = .connReleased ∨ e = .connect ∨ e = .offline ∨ e = .gone)
    (hc : c' = { c with refs := c'.refs, held := c'.held, own := c'.own }) (hgone : .gone ∈ log ++ out ↔ c'.refs = 0)
    (hcount : c'.held + c'.own + out.count .connReleased + out.count .offline = c.held + c.own + out.count .connAcquired + out.count .connect) :
    LI c' (log ++ out) := by
  obtain ⟨a1, a2, a3, a4, a5, a6, a7, a8, a9, a10, a11, a12⟩ := h
  have hlt := hs.numLt
  have hh := fun x hx => @handlers_append log out x.num (a4 _ (hlt x hx))
  have hno : ∀ e : Entry, (e ≠ .connAcquired ∧ e ≠ .connReleased ∧ e ≠ .connect ∧ e ≠ .offline ∧ e ≠ .gone) → e ∉ out := by
    rintro e ⟨h1, h2, h3, h4, h5⟩ hx
    rcases hout e hx with h | h | h | h | h <;> contradiction
  have hc0 : ∀ e : Entry, (e ≠ .connAcquired ∧ e ≠ .connReleased ∧ e ≠ .connect ∧ e ≠ .offline ∧ e ≠ .gone) → (log ++ out).count e = log.count e := by
    intro e he
    rw [List.count_append, List.count_eq_zero.2 (hno e he)]; rfl
  have hm0 : ∀ e : Entry, (e ≠ .connAcquired ∧ e ≠ .connReleased ∧ e ≠ .connect ∧ e ≠ .offline ∧ e ≠ .gone) → (e ∈ log ++ out ↔ e ∈ log) := by
    intro e he
    rw [List.mem_append]
    exact ⟨fun hx => hx.resolve_right (hno e he), .inl⟩
  have hlive : Listener311.live (log ++ out) = Listener311.live log := by
    clear hh hno hc0 hm0 hgone hcount a1 a2 a3 a4 a5 a6 a7 a8 a9 a10 a11 a12
    induction out generalizing log with
    | nil => rw [List.append_nil]
    | cons e out ih =>
      rw [List.append_cons, ih (fun e hx => hout e (by simp [hx])), live_snoc]
      rcases hout e (by simp) with rfl | rfl | rfl | rfl | rfl <;> rfl
  generalize c'.refs = r at *
  generalize c'.held = h' at *
  generalize c'.own = o at *
  subst hc
  constructor
  · rw [hlive]; exact a1
  · intro x hx; rw [hh x hx]; exact a2 x hx
  · intro x hx; rw [hc0 (.released _) (by simp), hc0 (.acquired _) (by simp)]; exact a3 x hx
  · intro n hn
    obtain ⟨x, hx⟩ := a4 n hn
    exact ⟨x, by simp [hx]⟩
  · intro n ks hx
    rw [hm0 _ (by simp)] at hx ⊢
    exact a5 n ks hx
  · intro n hx
    rw [hm0 _ (by simp)] at hx
    exact a6 n hx
  · intro x hx hi; rw [hm0 _ (by simp)]; exact a7 x hx hi
  · intro n hx
    rw [hm0 _ (by simp)] at hx ⊢
    rw [hc0 (.released _) (by simp), hc0 (.acquired _) (by simp)]; exact a8 n hx
  · intro n hn; rw [hc0 (.released _) (by simp), hc0 (.acquired _) (by simp)]; exact a9 n hn
  · rw [hm0 _ (by simp)]; exact a10
  · exact hgone
  · simp only [List.count_append]
    omega

/-- An event that is passed on. -/
structure Fire (c : Conn) (log : List Entry) : Prop where
  none : c.firing = none → ∀ p m e, log = p ++ .event e :: m → .finished ∈ m
  some : ∀ ev rest, c.firing = some (ev, rest) → ∃ p m, log = p ++ .event ev :: m ∧ Within m ∧ (∀ n, n ∈ live p → ∃ hs, .created n hs ∈ p) ∧
    calls m ++ (rest.filter (ev.kind ∈ ·.handles)).map (fun s => (s.num, ev)) =
      ((live p).filter (ev.kind ∈ handlers p ·)).map (·, ev)
  past : ∀ p m q e, log = p ++ .event e :: (m ++ .finished :: q) → Within m →
    calls m = ((live p).filter (e.kind ∈ handlers p ·)).map (·, e)
  inside : ∀ p q n e, log = p ++ .called n e :: q → ∃ p' m, p = p' ++ .event e :: m ∧ Within m ∧ n ∈ live p' ∧ e.kind ∈ handlers p' n

theorem fire_init : Fire {} [] := by
  constructor
  · intro _ p m e h; simp at h
  · intro ev rest h; cases h
  · intro p m q e h; simp at h
  · intro p q n e h; simp at h

theorem snoc_split {α : Type} {l p q : List α} {e x : α} (h : l ++ [e] = p ++ x :: q) :
    (q = [] ∧ e = x ∧ p = l) ∨ ∃ q', q = q' ++ [e] ∧ l = p ++ x :: q' := by
  rcases List.eq_nil_or_concat q with rfl | ⟨q', y, rfl⟩
  · have := List.append_inj' h rfl
    simp only [List.cons.injEq, and_true] at this
    exact .inl ⟨rfl, this.2, this.1.symm⟩
  · rw [List.concat_eq_append, ← List.cons_append, ← List.append_assoc] at h
    have := List.append_inj' h rfl
    simp only [List.cons.injEq, and_true] at this
    obtain ⟨rfl, rfl⟩ := this
    exact .inr ⟨q', by simp, rfl⟩

theorem past_snoc {log : List Entry} {e0 : Entry} (he : e0 ≠ .finished)
    (h : ∀ p m q e, log = p ++ .event e :: (m ++ .finished :: q) → Within m → calls m = ((live p).filter (e.kind ∈ handlers p ·)).map (·, e)) :
    ∀ p m q e, log ++ [e0] = p ++ .event e :: (m ++ .finished :: q) → Within m → calls m = ((live p).filter (e.kind ∈ handlers p ·)).map (·, e) := by
  intro p m q e hl hw
  have h2 : log ++ [e0] = (p ++ .event e :: m) ++ .finished :: q := by rw [hl]; simp
  rcases snoc_split h2 with ⟨_, e1, _⟩ | ⟨q', rfl, e1⟩
  · exact absurd e1 he
  · exact h p m q' e (by rw [e1]; simp) hw

theorem fire_neutral {c c' : Conn} {log : List Entry} (h : Fire c log) (hf : c'.firing = c.firing) {e0 : Entry} (h1 : e0 ≠ .finished)
    (h2 : ∀ e, e0 ≠ .event e) (h3 : ∀ n e, e0 ≠ .called n e) : Fire c' (log ++ [e0]) := by
  constructor
  · intro hn p m e hl
    rw [hf] at hn
    rcases snoc_split hl with ⟨_, e1, _⟩ | ⟨q', rfl, e1⟩
    · exact absurd e1 (h2 e)
    · have := h.none hn p q' e e1
      simp [this]
  · intro ev rest hs
    rw [hf] at hs
    obtain ⟨p, m, e1, ⟨w1, w2⟩, e2, e3⟩ := h.some ev rest hs
    refine ⟨p, m ++ [e0], by rw [e1]; simp, ⟨by simp [w1, Ne.symm h1], fun e => by simp [w2 e, Ne.symm (h2 e)]⟩, e2, ?_⟩
    rw [calls_snoc]
    cases e0 with
    | called n e => exact absurd rfl (h3 n e)
    | _ => exact e3
  · exact past_snoc h1 h.past
  · intro p q n e hl
    rcases snoc_split hl with ⟨_, e1, _⟩ | ⟨q', rfl, e1⟩
    · exact absurd e1 (h3 n e)
    · exact h.inside p q' n e e1

theorem fire_neutrals {c c' : Conn} {log out : List Entry} (h : Fire c log) (hf : c'.firing = c.firing)
    (ho : ∀ e0 ∈ out, e0 ≠ .finished ∧ (∀ e, e0 ≠ .event e) ∧ ∀ n e, e0 ≠ .called n e) : Fire c' (log ++ out) := by
  induction out generalizing log c with
  | nil =>
    rw [List.append_nil]
    exact ⟨fun hn => h.none (hf ▸ hn), fun ev rest hs => h.some ev rest (hf ▸ hs), h.past, h.inside⟩
  | cons e0 out ih =>
    rw [List.append_cons]
    obtain ⟨h1, h2, h3⟩ := ho e0 (by simp)
    exact ih (fire_neutral h rfl h1 h2 h3) hf (fun e hx => ho e (by simp [hx]))

theorem fire_fire {c : Conn} {log : List Entry} (hs : SI c) (hl : LI c log) (h : Fire c log) (ev : Ev) :
    Fire (step c (.fire ev)).1 (log ++ (step c (.fire ev)).2) := by
  unfold step
  have hcr : ∀ n, n ∈ live log → ∃ hs, .created n hs ∈ log := by
    intro n hn
    rw [hl.live] at hn
    obtain ⟨e, he, rfl⟩ := List.mem_map.1 hn
    obtain ⟨l, hll, rfl⟩ := hs.ent e he
    exact hl.made _ (hs.numLt l hll)
  constructor
  · intro hn; cases hn
  · intro ev' rest he
    injection he with he
    injection he with e1 e2
    subst e1 e2
    refine ⟨log, [], rfl, ⟨by simp, by simp⟩, hcr, ?_⟩
    rw [hl.live]
    have : ∀ es : List SetEntry, (∀ e ∈ es, handlers log e.num = e.handles) →
        (es.filter (ev.kind ∈ ·.handles)).map (fun s => (s.num, ev)) = ((es.map (·.num)).filter (ev.kind ∈ handlers log ·)).map (·, ev) := by
      intro es
      induction es with
      | nil => intro _; rfl
      | cons e es ih =>
        intro hh
        have h1 := hh e (by simp)
        have h2 := ih (fun x hx => hh x (by simp [hx]))
        by_cases hk : ev.kind ∈ e.handles
        · rw [List.filter_cons_of_pos (by simpa using hk), List.map_cons, List.map_cons, List.filter_cons_of_pos (by simpa [h1] using hk), List.map_cons, h2]
        · rw [List.filter_cons_of_neg (by simpa using hk), List.map_cons, List.filter_cons_of_neg (by simpa [h1] using hk), h2]
    simp only [calls, List.filterMap_nil, List.nil_append]
    apply this
    intro e he
    obtain ⟨l, hll, rfl⟩ := hs.ent e he
    exact hl.hand l hll
  · exact past_snoc (by simp) h.past
  · intro p q n e hx
    rcases snoc_split hx with ⟨_, e1, _⟩ | ⟨q', rfl, e1⟩
    · cases e1
    · exact h.inside p q' n e e1

theorem fire_next {c : Conn} {log : List Entry} (h : Fire c log) (hen : c.firing ≠ none) : Fire (step c .next).1 (log ++ (step c .next).2) := by
  unfold step
  match hf : c.firing with
  | none => exact absurd hf hen
  | some (ev, []) =>
    obtain ⟨p, m, e1, ⟨w1, w2⟩, e2, e3⟩ := h.some ev [] hf
    constructor
    · intro _ p' m' e hl
      rcases snoc_split hl with ⟨_, e4, _⟩ | ⟨q', rfl, e4⟩
      · cases e4
      · simp
    · intro ev' rest he; cases he
    · intro p' m' q e hl hw
      have h2 : log ++ [.finished] = (p' ++ .event e :: m') ++ .finished :: q := by rw [hl]; simp
      rcases snoc_split h2 with ⟨_, _, e5⟩ | ⟨q', rfl, e5⟩
      · -- the event that ends now
        have e6 : p' ++ .event e :: m' = p ++ .event ev :: m := e5.trans e1
        have : p' = p ∧ e = ev ∧ m' = m := by
          rcases List.append_eq_append_iff.1 e6 with ⟨a, b1, b2⟩ | ⟨a, b1, b2⟩
          · cases a with
            | nil => simp at b1 b2; exact ⟨b1.symm, b2.1, b2.2⟩
            | cons x a =>
              simp only [List.cons_append, List.cons.injEq] at b2
              exact absurd (by rw [b2.2]; simp) (hw.2 ev)
          · cases a with
            | nil => simp at b1 b2; exact ⟨b1, b2.1.symm, b2.2.symm⟩
            | cons x a =>
              simp only [List.cons_append, List.cons.injEq] at b2
              exact absurd (by rw [b2.2]; simp) (w2 e)
        obtain ⟨rfl, rfl, rfl⟩ := this
        simpa using e3
      · exact h.past p' m' q' e (by rw [e5]; simp) hw
    · intro p' q n e hx
      rcases snoc_split hx with ⟨_, e4, _⟩ | ⟨q', rfl, e4⟩
      · cases e4
      · exact h.inside p' q' n e e4
  | some (ev, s :: rest) =>
    obtain ⟨p, m, e1, ⟨w1, w2⟩, e2, e3⟩ := h.some ev (s :: rest) hf
    by_cases hk : ev.kind ∈ s.handles
    · simp only [if_pos hk]
      constructor
      · intro hn; cases hn
      · intro ev' rest' he
        injection he with he
        injection he with e4 e5
        subst e4 e5
        refine ⟨p, m ++ [.called s.num ev], by rw [e1]; simp, ⟨by simp [w1], by simp [w2]⟩, e2, ?_⟩
        rw [calls_snoc, ← e3, List.filter_cons_of_pos (by simpa using hk)]
        simp
      · exact past_snoc (by simp) h.past
      · intro p' q n e hx
        rcases snoc_split hx with ⟨_, e4, rfl⟩ | ⟨q', rfl, e4⟩
        · injection e4 with e4 e5
          subst e5
          have hin : (s.num, ev) ∈ ((live p).filter (ev.kind ∈ handlers p ·)).map (·, ev) := by
            rw [← e3, List.filter_cons_of_pos (by simpa using hk)]; simp
          obtain ⟨x, hx, e6⟩ := List.mem_map.1 hin
          injection e6 with e6 _
          subst e4 e6
          exact ⟨p, m, e1, ⟨w1, w2⟩, (List.mem_filter.1 hx).1, by simpa using (List.mem_filter.1 hx).2⟩
        · exact h.inside p' q' n e e4
    · simp only [if_neg hk, List.append_nil]
      constructor
      · intro hn; cases hn
      · intro ev' rest' he
        injection he with he
        injection he with e4 e5
        subst e4 e5
        refine ⟨p, m, e1, ⟨w1, w2⟩, e2, ?_⟩
        rw [← e3, List.filter_cons_of_neg (by simpa using hk)]
      · exact h.past
      · exact h.inside

structure Good (c : Conn) (log : List Entry) : Prop where
  si : SI c
  li : LI c log
  fire : Fire c log

theorem li_step {c : Conn} {log : List Entry} (hs : SI c) (h : LI c log) {e : Event} (hen : Enabled c e) : LI (step c e).1 (log ++ (step c e).2) := by
  cases e with
  | new ks => exact li_new hs h hen ks
  | acquire n => obtain ⟨l, hl, rfl, h0⟩ := hen; exact li_acquire hs h hl
  | release n => obtain ⟨l, hl, rfl, h0⟩ := hen; exact li_release hs h hl h0
  | run =>
    match hc : c.queue with
    | [] => exact absurd hc hen.1
    | .initialize n :: q => exact li_attach hs h hc
    | .terminate n :: q => exact li_terminate hs h hc
  | fire ev => exact li_plain (c' := (step c (.fire ev)).1) hs h (e := .event ev) trivial rfl
  | next =>
    unfold step
    match hf : c.firing with
    | none => exact absurd hf hen
    | some (ev, []) => exact li_plain (c' := { c with firing := none }) hs h (e := .finished) trivial rfl
    | some (ev, s :: rest) =>
      by_cases hk : ev.kind ∈ s.handles
      · simp only [if_pos hk]
        exact li_plain (c' := { c with firing := some (ev, rest) }) hs h (e := .called s.num ev) trivial rfl
      · simp only [if_neg hk, List.append_nil]
        exact ⟨h.live, h.hand, h.held, h.made, h.cre, h.att, h.att', h.term, h.new, h.valid, h.gone, h.conn⟩
  | acquireConn =>
    have h0 : 0 < c.held := hen
    have := hs.refs
    refine li_conn (c' := (step c .acquireConn).1) hs h (by simp [step]) rfl ?_ (by simp [step]; omega)
    simp only [step, List.mem_append, List.mem_singleton, reduceCtorEq, or_false, h.gone]
    constructor
    · intro e; omega
    · intro e; cases e
  | connect =>
    have h0 : 0 < c.held := hen
    have := hs.refs
    refine li_conn (c' := (step c .connect).1) hs h (by simp [step]) rfl ?_ (by simp [step]; omega)
    simp only [step, List.mem_append, List.mem_singleton, reduceCtorEq, or_false, h.gone]
    constructor
    · intro e; omega
    · intro e; cases e
  | releaseConn =>
    have h0 : 0 < c.held := hen
    have hr := hs.refs
    have hng : Entry.gone ∉ log := by rw [h.gone]; omega
    have hne : c.refs ≠ 0 := by omega
    by_cases h1 : c.refs = 1
    · refine li_conn (c' := (step c .releaseConn).1) hs h ?_ rfl ?_ ?_ <;> simp [step, Conn.releaseConn, h1]
      omega
    · refine li_conn (c' := (step c .releaseConn).1) hs h ?_ rfl ?_ ?_ <;> simp [step, Conn.releaseConn, h1, hne, hng] <;> omega
  | offline =>
    have h0 : 0 < c.own := hen.1
    have hr := hs.refs
    have hng : Entry.gone ∉ log := by rw [h.gone]; omega
    have hne : c.refs ≠ 0 := by omega
    by_cases h1 : c.refs = 1
    · refine li_conn (c' := (step c .offline).1) hs h ?_ rfl ?_ ?_ <;> simp [step, Conn.releaseConn, h1]
      omega
    · refine li_conn (c' := (step c .offline).1) hs h ?_ rfl ?_ ?_ <;> simp [step, Conn.releaseConn, h1, hne, hng] <;> omega

theorem fire_step {c : Conn} {log : List Entry} (hs : SI c) (hl : LI c log) (h : Fire c log) {e : Event} (hen : Enabled c e) :
    Fire (step c e).1 (log ++ (step c e).2) := by
  cases e with
  | fire ev => exact fire_fire hs hl h ev
  | next => exact fire_next h hen
  | new ks => exact fire_neutrals h rfl (by simp [step])
  | acquire n => exact fire_neutrals h rfl (by simp [step])
  | acquireConn => exact fire_neutrals h rfl (by simp [step])
  | connect => exact fire_neutrals h rfl (by simp [step])
  | release n =>
    obtain ⟨l, hll, rfl, h0⟩ := hen
    rw [release_step hs hll h0]
    exact fire_neutrals h rfl (by simp)
  | releaseConn =>
    refine fire_neutrals h rfl ?_
    simp only [step, Conn.releaseConn]
    split
    · simp
    · split <;> simp
  | offline =>
    refine fire_neutrals h rfl ?_
    simp only [step, Conn.releaseConn]
    split
    · simp
    · split <;> simp
  | run =>
    match hc : c.queue with
    | [] => exact absurd hc hen.1
    | .initialize n :: q =>
      obtain ⟨l, _, _, he⟩ := run_init hs hc
      rw [he]
      exact fire_neutrals h rfl (by simp)
    | .terminate n :: q =>
      obtain ⟨l, _, _, _, _, he⟩ := run_term hs hc
      rw [he]
      refine fire_neutrals h rfl ?_
      split <;> simp

theorem reachable_good {c : Conn} {log : List Entry} (h : Reachable c log) : Good c log := by
  induction h with
  | init => exact ⟨si_init, li_init, fire_init⟩
  | step e _ hen ih => exact ⟨si_step ih.si hen, li_step ih.si ih.li hen, fire_step ih.si ih.li ih.fire hen⟩

/-- The callback sets do not change while an event is passed on. -/
theorem reachable_rest {c : Conn} {log : List Entry} (h : Reachable c log) : ∀ ev rest, c.firing = some (ev, rest) → ∀ s ∈ rest, s ∈ c.entries := by
  induction h with
  | init => intro ev rest hf; cases hf
  | @step c log e hr hen ih =>
    intro ev rest hf s hs
    have hsi := (reachable_good hr).si
    cases e with
    | new ks => exact ih ev rest hf s hs
    | acquire n => exact ih ev rest hf s hs
    | acquireConn => exact ih ev rest hf s hs
    | connect => exact ih ev rest hf s hs
    | releaseConn => exact ih ev rest hf s hs
    | offline => exact ih ev rest hf s hs
    | release n =>
      obtain ⟨l, hll, rfl, h0⟩ := hen
      rw [release_step hsi hll h0] at hf ⊢
      exact ih ev rest hf s hs
    | fire ev' =>
      simp only [step, Option.some.injEq, Prod.mk.injEq] at hf ⊢
      rw [← hf.2] at hs; exact hs
    | next =>
      unfold step at hf ⊢
      match hf' : c.firing with
      | none => exact absurd hf' hen
      | some (ev', []) => rw [hf'] at hf; cases hf
      | some (ev', x :: rest') =>
        rw [hf'] at hf
        simp only [Option.some.injEq, Prod.mk.injEq] at hf ⊢
        exact ih ev' (x :: rest') hf' s (by rw [hf.2]; exact List.mem_cons_of_mem _ hs)
    | run =>
      exfalso
      match hc : c.queue with
      | [] => exact absurd hc hen.1
      | .initialize n :: q =>
        obtain ⟨l, _, _, he⟩ := run_init hsi hc
        rw [he] at hf
        simp only [hen.2] at hf; cases hf
      | .terminate n :: q =>
        obtain ⟨l, _, _, _, _, he⟩ := run_term hsi hc
        rw [he] at hf
        simp only [hen.2] at hf; cases hf

end Mqtt.Listener311
