import Verif.Lemmas.Listener311Log

/-!
C86: listeners of an MQTT 3.1.1 connection get its events from when they are attached until they terminate, and keep it alive.
-/
namespace Mqtt.Props
open Mqtt.Listener311

/-- When an event was passed on, the handlers for it of all listeners that were attached were called once each, in the order of
the list, with its arguments, and no other handlers. -/
theorem C86_event {c : Conn} {log : List Entry} (h : Reachable c log) {pre mid post : List Entry} {e : Ev}
    (hl : log = pre ++ .event e :: (mid ++ .finished :: post)) (hm : Within mid) :
    calls mid = ((live pre).filter (e.kind ∈ handlers pre ·)).map (·, e) :=
  (reachable_good h).fire.past pre mid post e hl hm

/-- A handler is called only while an event is passed on, of a listener that was attached when it began, and that has a handler
for it. -/
theorem C86_called {c : Conn} {log : List Entry} (h : Reachable c log) {pre post : List Entry} {n : Nat} {e : Ev} (hl : log = pre ++ .called n e :: post) :
    ∃ p m, pre = p ++ .event e :: m ∧ Within m ∧ n ∈ live p ∧ e.kind ∈ handlers p n :=
  (reachable_good h).fire.inside pre post n e hl

/-- The listeners that were created last come first, and none comes twice. -/
theorem C86_newest {c : Conn} {log : List Entry} (h : Reachable c log) : (live log).Pairwise (· > ·) := by
  rw [(reachable_good h).li.live]; exact (reachable_good h).si.sorted

/-- A listener is attached when the tasks of the event loop were run, and from then on until it terminates. -/
theorem C86_attached {c : Conn} {log : List Entry} (h : Reachable c log) {n : Nat} :
    (n ∈ live log ↔ .attached n ∈ log ∧ .terminated n ∉ log) ∧ (c.queue = [] → (∃ hs, .created n hs ∈ log) → .attached n ∈ log) := by
  obtain ⟨si, li, _⟩ := reachable_good h
  constructor
  · rw [li.live, List.mem_map]
    constructor
    · rintro ⟨e, he, rfl⟩
      obtain ⟨l, hl, rfl⟩ := si.ent e he
      refine ⟨li.att' l hl ?_, fun ht => (li.term _ ht).2.1 l hl rfl⟩
      intro hi
      exact (si.waiting l hl hi).2.1 _ he rfl
    · rintro ⟨ha, ht⟩
      obtain ⟨hn, hi⟩ := li.att n ha
      obtain ⟨hs, hc⟩ := li.made n hn
      rcases (li.cre n hs hc).2 with ⟨l, hl, rfl⟩ | ht'
      · exact ⟨_, (si.ready l hl hi).2.1, rfl⟩
      · exact absurd ht' ht
  · rintro hq ⟨hs, hc⟩
    rcases (li.cre n hs hc).2 with ⟨l, hl, rfl⟩ | ht
    · exact li.att' l hl (by rw [hq]; simp)
    · exact (li.term n ht).2.2.1

/-- The last step that wrote an entry. -/
private theorem split_step {c : Conn} {log : List Entry} {P : List Entry → Entry → List Entry → Prop} (h : Reachable c log)
    (hnew : ∀ c log e, Reachable c log → Enabled c e → ∀ x p q, (Listener311.step c e).2 = p ++ x :: q → P (log ++ p) x q)
    (hold : ∀ c log e, Reachable c log → Enabled c e → ∀ x p q, log = p ++ x :: q → P p x q → P p x (q ++ (Listener311.step c e).2)) :
    ∀ p x q, log = p ++ x :: q → P p x q := by
  induction h with
  | init => intro p x q hl; simp at hl
  | @step c log e hr hen ih =>
    intro p x q hl
    rcases List.append_eq_append_iff.1 hl with ⟨a, e1, e2⟩ | ⟨a, e1, e2⟩
    · rw [e1]; exact hnew c log e hr hen x a q e2
    · cases a with
      | nil =>
        simp only [List.nil_append, List.append_nil] at e1 e2
        have := hnew c log e hr hen x [] q e2.symm
        rw [← e1]; simpa using this
      | cons y a =>
        simp only [List.cons_append, List.cons.injEq] at e2
        obtain ⟨rfl, rfl⟩ := e2
        exact hold c log e hr hen x p a e1 (ih p x a e1)

private theorem run_out {c : Conn} {log : List Entry} (h : Reachable c log) {e : Event} (hen : Enabled c e) {n : Nat} {p q : List Entry} {x : Entry}
    (hx : x = .terminated n ∨ x = .attached n ∨ ∃ v, x = .called n v) (hs : (Listener311.step c e).2 = p ++ x :: q) :
    (∃ l ∈ c.listeners, l.num = n ∧ (x = .terminated n → l.held = 0 ∧ .initialize n ∉ c.queue)) ∧ (x = .terminated n → q = [] ∧ (p = [] ∨ p = [.gone])) := by
  obtain ⟨si, li, fi⟩ := reachable_good h
  have hmem : x ∈ (Listener311.step c e).2 := by rw [hs]; simp
  have hno : ∀ y : Entry, y = x → y ≠ .terminated n → y ≠ .attached n → (∀ v, y ≠ .called n v) → False := by
    rintro y rfl h1 h2 h3
    rcases hx with h | h | ⟨v, h⟩
    · exact h1 h
    · exact h2 h
    · exact h3 v h
  cases e with
  | new ks => simp only [Listener311.step, List.mem_singleton] at hmem; exact (hno _ hmem.symm (by simp) (by simp) (by simp)).elim
  | acquire m => simp only [Listener311.step, List.mem_singleton] at hmem; exact (hno _ hmem.symm (by simp) (by simp) (by simp)).elim
  | acquireConn => simp only [Listener311.step, List.mem_singleton] at hmem; exact (hno _ hmem.symm (by simp) (by simp) (by simp)).elim
  | connect => simp only [Listener311.step, List.mem_singleton] at hmem; exact (hno _ hmem.symm (by simp) (by simp) (by simp)).elim
  | fire v => simp only [Listener311.step, List.mem_singleton] at hmem; exact (hno _ hmem.symm (by simp) (by simp) (by simp)).elim
  | release m =>
    obtain ⟨l, hll, rfl, h0⟩ := hen
    rw [release_step si hll h0] at hmem
    simp only [List.mem_singleton] at hmem; exact (hno _ hmem.symm (by simp) (by simp) (by simp)).elim
  | releaseConn =>
    simp only [Listener311.step, Conn.releaseConn] at hmem
    rcases List.mem_cons.1 hmem with hm | hm
    · exact (hno _ hm.symm (by simp) (by simp) (by simp)).elim
    · split at hm
      · simp only [List.mem_singleton] at hm; exact (hno _ hm.symm (by simp) (by simp) (by simp)).elim
      · split at hm
        · simp only [List.mem_singleton] at hm; exact (hno _ hm.symm (by simp) (by simp) (by simp)).elim
        · cases hm
  | offline =>
    simp only [Listener311.step, Conn.releaseConn] at hmem
    rcases List.mem_cons.1 hmem with hm | hm
    · exact (hno _ hm.symm (by simp) (by simp) (by simp)).elim
    · split at hm
      · simp only [List.mem_singleton] at hm; exact (hno _ hm.symm (by simp) (by simp) (by simp)).elim
      · split at hm
        · simp only [List.mem_singleton] at hm; exact (hno _ hm.symm (by simp) (by simp) (by simp)).elim
        · cases hm
  | next =>
    unfold Listener311.step at hmem
    match hf : c.firing with
    | none => exact absurd hf hen
    | some (v, []) =>
      simp only [hf, List.mem_singleton] at hmem; exact (hno _ hmem.symm (by simp) (by simp) (by simp)).elim
    | some (v, s :: rest) =>
      simp only [hf] at hmem
      split at hmem
      · simp only [List.mem_singleton] at hmem
        subst hmem
        rcases hx with hx | hx | ⟨v', hx⟩
        · cases hx
        · cases hx
        · injection hx with e1 _
          subst e1
          obtain ⟨l, hl, e2⟩ := si.ent s (reachable_rest h v (s :: rest) hf s (by simp))
          exact ⟨⟨l, hl, by rw [e2], by simp⟩, by simp⟩
      · cases hmem
  | run =>
    match hc : c.queue with
    | [] => exact absurd hc hen.1
    | .initialize m :: qq =>
      obtain ⟨l, hl, rfl, he⟩ := run_init si hc
      rw [he] at hmem
      simp only [List.mem_singleton] at hmem
      subst hmem
      rcases hx with hx | hx | ⟨v', hx⟩
      · cases hx
      · injection hx with e1
        exact ⟨⟨l, hl, e1, by simp⟩, by simp⟩
      · cases hx
    | .terminate m :: qq =>
      obtain ⟨l, hl, rfl, h0, hni, he⟩ := run_term si hc
      rw [he] at hmem hs
      have : x = .terminated l.num := by
        rcases List.mem_append.1 hmem with hm | hm
        · split at hm
          · simp only [List.mem_singleton] at hm; exact (hno _ hm.symm (by simp) (by simp) (by simp)).elim
          · cases hm
        · simpa using hm
      subst this
      rcases hx with hx | hx | ⟨v', hx⟩
      · injection hx with e1
        subst e1
        refine ⟨⟨l, hl, rfl, fun _ => ⟨h0, by rw [hc] at hni; exact hni⟩⟩, fun _ => ?_⟩
        split at hs
        · rcases snoc_split (l := [Entry.gone]) hs with ⟨e1, _, e2⟩ | ⟨q', _, e2⟩
          · exact ⟨e1, .inr e2⟩
          · cases p with
            | nil => simp at e2
            | cons y p => cases p <;> simp at e2
        · rcases snoc_split (l := []) hs with ⟨e1, _, e2⟩ | ⟨q', _, e2⟩
          · exact ⟨e1, .inl e2⟩
          · simp at e2
      · cases hx
      · cases hx

/-- The termination callback is called after the listener was attached and all its references were released, once, and no handler
of it is called later. -/
theorem C86_terminated {c : Conn} {log : List Entry} (h : Reachable c log) {pre post : List Entry} {n : Nat} (hl : log = pre ++ .terminated n :: post) :
    .attached n ∈ pre ∧ Free pre n ∧ .terminated n ∉ pre ∧ .terminated n ∉ post ∧ .attached n ∉ post ∧ ∀ e, .called n e ∉ post := by
  have key := split_step (P := fun p x q => ∀ n, x = .terminated n → .attached n ∈ p ∧ Free p n ∧ .terminated n ∉ p ∧
    .terminated n ∉ q ∧ .attached n ∉ q ∧ ∀ e, .called n e ∉ q) h ?_ ?_
  · exact key pre (.terminated n) post hl n rfl
  · rintro c log e hr hen x p q hs n rfl
    obtain ⟨si, li, _⟩ := reachable_good hr
    obtain ⟨⟨l, hll, rfl, hl2⟩, hpq⟩ := run_out hr hen (.inl rfl) hs
    obtain ⟨h0, hni⟩ := hl2 rfl
    obtain ⟨rfl, hp⟩ := hpq rfl
    have hpn : .terminated l.num ∉ p := by rcases hp with rfl | rfl <;> simp
    have hcount := li.held l hll
    obtain ⟨hs', hc⟩ := li.made _ (si.numLt l hll)
    refine ⟨List.mem_append_left _ (li.att' l hll hni), ⟨⟨hs', List.mem_append_left _ hc⟩, ?_⟩, ?_, by simp, by simp, by simp⟩
    · rw [List.count_append, List.count_append]
      have h1 : p.count (.released l.num) = 0 := by rcases hp with rfl | rfl <;> simp
      have h2 : p.count (.acquired l.num) = 0 := by rcases hp with rfl | rfl <;> simp
      omega
    · rw [List.mem_append, not_or]
      exact ⟨fun ht => (li.term _ ht).2.1 l hll rfl, hpn⟩
  · rintro c log e hr hen x p q hlog hP n rfl
    obtain ⟨a1, a2, a3, a4, a5, a6⟩ := hP n rfl
    obtain ⟨si, li, _⟩ := reachable_good hr
    have hno : ∀ x, (x = .terminated n ∨ x = .attached n ∨ ∃ v, x = .called n v) → x ∉ (Listener311.step c e).2 := by
      intro x hx hm
      obtain ⟨p', q', e1⟩ := List.append_of_mem hm
      obtain ⟨⟨l, hll, e2, _⟩, _⟩ := run_out hr hen hx e1
      exact (li.term n (by rw [hlog]; simp)).2.1 l hll e2
    refine ⟨a1, a2, a3, ?_, ?_, ?_⟩
    · rw [List.mem_append, not_or]; exact ⟨a4, hno _ (.inl rfl)⟩
    · rw [List.mem_append, not_or]; exact ⟨a5, hno _ (.inr (.inl rfl))⟩
    · intro v; rw [List.mem_append, not_or]; exact ⟨a6 v, hno _ (.inr (.inr ⟨v, rfl⟩))⟩

/-- A listener of which all references are released terminates when the tasks of the event loop were run. -/
theorem C86_ends {c : Conn} {log : List Entry} (h : Reachable c log) (hq : c.queue = []) {n : Nat} (hf : Free log n) : .terminated n ∈ log := by
  obtain ⟨si, li, _⟩ := reachable_good h
  obtain ⟨⟨hs, hc⟩, hcount⟩ := hf
  rcases (li.cre n hs hc).2 with ⟨l, hl, rfl⟩ | ht
  · have := li.held l hl
    have hr := (si.ready l hl (by rw [hq]; simp)).2.2.2 (by omega)
    rw [hq] at hr; cases hr
  · exact ht

/-- What the tasks that wait may still do. -/
def work (q : List Task) : Nat := (q.map fun t => match t with | .initialize _ => 2 | .terminate _ => 1).sum

/-- The event loop comes to an end with the tasks if nothing else happens. -/
theorem C86_drains {c : Conn} {log : List Entry} (h : Reachable c log) (hen : Enabled c .run) :
    work (Listener311.step c .run).1.queue < work c.queue ∧ (Listener311.step c .run).1.firing = none := by
  obtain ⟨si, li, _⟩ := reachable_good h
  match hc : c.queue with
  | [] => exact absurd hc hen.1
  | .initialize m :: q =>
    obtain ⟨l, hl, rfl, he⟩ := run_init si hc
    rw [he]
    refine ⟨?_, hen.2⟩
    simp only
    split <;> simp [work] <;> omega
  | .terminate m :: q =>
    obtain ⟨l, hl, rfl, _, _, he⟩ := run_term si hc
    rw [he]
    exact ⟨by simp [work], hen.2⟩

/-- The last reference of the connection is released when nobody but listeners holds one and all listeners have terminated, and
not before. -/
theorem C86_conn {c : Conn} {log : List Entry} (h : Reachable c log) :
    .gone ∈ log ↔ ConnFree log ∧ ∀ n hs, .created n hs ∈ log → .terminated n ∈ log := by
  obtain ⟨si, li, _⟩ := reachable_good h
  have hc := li.conn
  rw [li.gone, si.refs]
  unfold ConnFree
  constructor
  · intro h0
    refine ⟨by omega, fun n hs hx => ?_⟩
    rcases (li.cre n hs hx).2 with ⟨l, hl, _⟩ | ht
    · have := List.length_pos_of_mem hl; omega
    · exact ht
  · rintro ⟨h1, h2⟩
    have : c.listeners = [] := by
      cases hls : c.listeners with
      | nil => rfl
      | cons l ls =>
        have hl : l ∈ c.listeners := by rw [hls]; simp
        obtain ⟨hs, hx⟩ := li.made _ (si.numLt l hl)
        exact absurd rfl ((li.term _ (h2 _ hs hx)).2.1 l hl)
    rw [this, List.length_nil]; omega

/-- Nothing happens after that, but for the termination callback of the last listener. -/
theorem C86_gone {c : Conn} {log : List Entry} (h : Reachable c log) :
    (.gone ∈ log → ∀ e, ¬ Enabled c e) ∧ ∀ pre post, log = pre ++ .gone :: post → post = [] ∨ ∃ n, post = [.terminated n] := by
  have hfinal : ∀ {c : Conn} {log : List Entry}, Reachable c log → .gone ∈ log → ∀ e, ¬ Enabled c e := by
    intro c log h hg e hen
    obtain ⟨si, li, _⟩ := reachable_good h
    have h0 := si.refs
    rw [li.gone.1 hg] at h0
    have hls : c.listeners = [] := List.length_eq_zero_iff.1 (by omega)
    cases e with
    | new ks => have : 0 < c.held := hen; omega
    | acquire n => obtain ⟨l, hl, _⟩ := hen; rw [hls] at hl; cases hl
    | release n => obtain ⟨l, hl, _⟩ := hen; rw [hls] at hl; cases hl
    | acquireConn => have : 0 < c.held := hen; omega
    | releaseConn => have : 0 < c.held := hen; omega
    | connect => have : 0 < c.held := hen; omega
    | offline => have := hen.1; omega
    | fire v => have := hen.1; omega
    | next => have := si.busy hen; omega
    | run =>
      match hc : c.queue with
      | [] => exact absurd hc hen.1
      | .initialize n :: q => obtain ⟨l, hl, _⟩ := si.tasks n (.inl (by rw [hc]; simp)); rw [hls] at hl; cases hl
      | .terminate n :: q => obtain ⟨l, hl, _⟩ := si.tasks n (.inr (by rw [hc]; simp)); rw [hls] at hl; cases hl
  refine ⟨hfinal h, ?_⟩
  intro pre post hl
  have key := split_step (P := fun p x q => x = .gone → q = [] ∨ ∃ n, q = [.terminated n]) h ?_ ?_
  · exact key pre .gone post hl rfl
  · rintro c log e hr hen x p q hs rfl
    obtain ⟨si, li, _⟩ := reachable_good hr
    have htail : ∀ y : Entry, y ≠ .gone → ∀ b : List Entry, b = [] ∨ b = [.gone] ∨ b = [.invalid] → y :: b = p ++ .gone :: q → q = [] := by
      intro y hy b hb e1
      cases p with
      | nil => simp at e1; exact absurd e1.1 hy
      | cons z p =>
        simp only [List.cons_append, List.cons.injEq] at e1
        rcases hb with rfl | rfl | rfl
        · simp at e1
        · cases p with
          | nil => simp at e1; exact e1.2
          | cons w p => cases p <;> simp at e1
        · cases p with
          | nil => simp at e1
          | cons w p => cases p <;> simp at e1
    have hrel : (if c.refs = 0 then [Entry.invalid] else if c.refs = 1 then [.gone] else []) = [] ∨
        (if c.refs = 0 then [Entry.invalid] else if c.refs = 1 then [.gone] else []) = [.gone] ∨
        (if c.refs = 0 then [Entry.invalid] else if c.refs = 1 then [.gone] else []) = [.invalid] := by
      split
      · simp
      · split <;> simp
    cases e with
    | new ks => exact .inl (htail _ (by simp) [] (.inl rfl) hs)
    | acquire n => exact .inl (htail _ (by simp) [] (.inl rfl) hs)
    | release n =>
      obtain ⟨l, hll, rfl, h0⟩ := hen
      rw [release_step si hll h0] at hs
      exact .inl (htail _ (by simp) [] (.inl rfl) hs)
    | acquireConn => exact .inl (htail _ (by simp) [] (.inl rfl) hs)
    | connect => exact .inl (htail _ (by simp) [] (.inl rfl) hs)
    | fire v => exact .inl (htail _ (by simp) [] (.inl rfl) hs)
    | releaseConn => exact .inl (htail _ (by simp) _ hrel hs)
    | offline => exact .inl (htail _ (by simp) _ hrel hs)
    | next =>
      unfold Listener311.step at hs
      match hf : c.firing with
      | none => exact absurd hf hen
      | some (v, []) => rw [hf] at hs; exact .inl (htail _ (by simp) [] (.inl rfl) hs)
      | some (v, s :: rest) =>
        rw [hf] at hs
        simp only at hs
        split at hs
        · exact .inl (htail _ (by simp) [] (.inl rfl) hs)
        · simp at hs
    | run =>
      match hc : c.queue with
      | [] => exact absurd hc hen.1
      | .initialize n :: q' =>
        obtain ⟨l, _, _, he⟩ := run_init si hc
        rw [he] at hs
        exact .inl (htail _ (by simp) [] (.inl rfl) hs)
      | .terminate n :: q' =>
        obtain ⟨l, _, _, _, _, he⟩ := run_term si hc
        rw [he] at hs
        simp only at hs
        split at hs
        · cases p with
          | nil => simp at hs; exact .inr ⟨n, hs.symm⟩
          | cons z p =>
            cases p with
            | nil => simp at hs
            | cons w p => cases p <;> simp at hs
        · cases p with
          | nil => simp at hs
          | cons w p => cases p <;> simp at hs
  · rintro c log e hr hen x p q hlog hP rfl
    exact absurd hen (hfinal hr (by rw [hlog]; simp) e)

/-- Nothing is used after it was freed. -/
theorem C86_valid {c : Conn} {log : List Entry} (h : Reachable c log) : .invalid ∉ log := (reachable_good h).li.valid

/-! ### An execution -/

private def okb (c : Conn) : Event → Bool
  | .new _ | .acquireConn | .releaseConn | .connect => decide (0 < c.held)
  | .acquire n | .release n => c.listeners.any fun l => l.num = n && decide (0 < l.held)
  | .offline | .fire _ => decide (0 < c.own) && c.firing.isNone
  | .run => !c.queue.isEmpty && c.firing.isNone
  | .next => c.firing.isSome

private theorem okb_sound {c : Conn} {e : Event} (h : okb c e = true) : Enabled c e := by
  cases e <;> simp_all [okb, Enabled]
  · cases hf : c.firing with
    | none => rw [hf] at h; cases h
    | some x => simp

private def play : Conn → List Entry → List Event → Option (Conn × List Entry)
  | c, log, [] => some (c, log)
  | c, log, e :: es => if okb c e then play (Listener311.step c e).1 (log ++ (Listener311.step c e).2) es else none

private theorem play_sound {es : List Event} : ∀ {c c' : Conn} {log log' : List Entry}, Reachable c log → play c log es = some (c', log') → Reachable c' log' := by
  induction es with
  | nil => intro c c' log log' h e; simp only [play, Option.some.injEq, Prod.mk.injEq] at e; rw [← e.1, ← e.2]; exact h
  | cons a es ih =>
    intro c c' log log' h e
    simp only [play] at e
    split at e
    · next ho => exact ih (.step a h (okb_sound ho)) e
    · cases e

/-- Two listeners. The second one is released by a handler while an event is passed on, and still gets it; a third one is created
there, and does not. The connection goes when the last of them terminates. -/
example : ∃ c, Reachable c [.connect, .created 0 [.publish], .created 1 [.publish, .success], .attached 0, .attached 1,
    .event ⟨.publish, 7⟩, .released 1, .created 2 [.publish], .connReleased, .called 1 ⟨.publish, 7⟩, .called 0 ⟨.publish, 7⟩, .finished,
    .terminated 1, .attached 2, .event ⟨.success, 3⟩, .finished, .offline, .released 0, .terminated 0, .released 2, .gone, .terminated 2] :=
  ⟨_, play_sound .init (es := [.connect, .new [.publish], .new [.publish, .success], .run, .run, .fire ⟨.publish, 7⟩, .release 1, .new [.publish],
    .releaseConn, .next, .next, .next, .run, .run, .fire ⟨.success, 3⟩, .next, .next, .next, .offline, .release 0, .run, .release 2, .run]) rfl⟩

end Mqtt.Props
