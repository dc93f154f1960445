import Verif.Spec.Websocket311
import Verif.Lemmas.Progress311Run

namespace Mqtt.Client311

/-- Only the beginning and the end of an attempt change `opening`. -/
theorem step_opening {c c' : Conn} {e : Event} (hc : Ctl c) (he : Enabled c e = true) (hs : step c e = .ok c')
    (h1 : ∀ ok, e ≠ .launch ok) (h2 : ∀ ok, e = .attempt ok → c.state = .disconnecting) (h3 : ∀ s, e ≠ .setup s) :
    c'.opening = c.opening := by
  by_cases ha : e.isAside = true
  · obtain ⟨⟨g, w, h⟩, _⟩ := step_aside hc he hs ha
    exact h.opening
  have rel : ∀ {d d' : Conn}, d.release = .ok d' → d'.opening = d.opening := by
    intro d d' h
    rcases release_cases h with ⟨rfl, _⟩ | ⟨rfl, _⟩ <;> rfl
  have sch : ∀ {d d' : Conn}, d.schedule = .ok d' → d'.opening = d.opening := by
    intro d d' h
    rw [schedule_ok h]
  have fin : ∀ {d d' : Conn} {p : State}, d.finishDisconnect p = .ok d' → d'.opening = d.opening := by
    intro d d' p h
    exact (rel h).trans rfl
  cases e with
  | connect clean =>
    simp only [step] at hs
    cases hs
    unfold Conn.connect
    split <;> rfl
  | launch ok => exact absurd rfl (h1 ok)
  | advance =>
    simp only [step] at hs
    unfold Conn.advance at hs
    split at hs
    · cases hs; rfl
    · rename_i all next hb
      have hr := (removes_aside all c).opening
      simp only at hs
      split at hs
      · cases hs; exact hr
      · exact (sch hs).trans hr
      · cases hs; exact hr
      · cases hs; exact hr
      · exact (fin hs).trans hr
    · split at hs
      · exact fin hs
      · exact (sch hs).trans rfl
    · cases hs; rfl
  | disconnect =>
    simp only [step] at hs
    cases hs
    unfold Conn.disconnect
    split <;> rfl
  | acquire => simp only [step] at hs; cases hs; rfl
  | release => exact (rel hs).trans rfl
  | setup s => exact absurd rfl (h3 s)
  | packet p =>
    cases p with
    | connack a =>
      cases a with
      | false => exact absurd rfl ha
      | true =>
        simp only [step] at hs
        split at hs
        · cases hs
        · simp only [Conn.receive] at hs
          cases hs
          unfold Conn.connack
          split
          · rfl
          · simp only [if_true]
            split <;> rfl
    | _ => exact absurd rfl ha
  | attempt ok =>
    simp only [step, Conn.attempt, h2 ok rfl, if_true] at hs
    split at hs
    · cases hs; rfl
    · exact (rel hs).trans rfl
  | disconnectTask => simp only [step] at hs; cases hs; rfl
  | shutdown =>
    simp only [step] at hs
    cases hs
    simp only [Enabled, decide_eq_true_eq] at he
    exact (hc.idle he.2.1).2.symm
  | _ => exact absurd rfl ha

end Mqtt.Client311

namespace Mqtt.Websocket311

open Mqtt.Client311

variable {o : Options} {c c' : Conn} {w w' : Ws}

theorem Reachable.conn (h : Reachable o c w) : Client311.Reachable (fun _ _ => True) c := by
  induction h with
  | init => exact .init
  | @step c c' w w' e _ hd he hs ih =>
    cases e with
    | base e x =>
      simp only [Enabled, Bool.and_eq_true] at he
      simp only [Websocket311.step] at hs
      split at hs
      · cases hs
      · rename_i d hd'
        cases hs
        exact .step ih hd he.1 trivial hd'
    | transformed a b =>
      simp only [Websocket311.step] at hs
      split at hs <;> cases hs
      exact ih

/-- The attempt, if one is in progress, and the ones before it. -/
structure Inv (o : Options) (c : Conn) (w : Ws) : Prop where
  idle : c.opening = false → w.phase = .idle ∧ w.request = none ∧ Past o w.made w.log
  busy : c.opening = true → ∃ r l t, w.request = some r ∧ w.made = r + 1 ∧ Past o r l ∧ w.log = l ++ t ∧
    (w.phase = .transforming ∧ o.transformer = true ∧ t = [.made r, .transform r] ∨
     w.phase = .connecting ∧ t = prepared o r ++ [.connect r] ∨
     w.phase = .failing ∧ (o.transformer = true ∧ t = [.made r, .transform r] ∨ t = prepared o r ++ [.connect r]))

theorem Inv.begin (h : Inv o c w) (ho : c.opening = false) (x : Outside)
    (hc : c'.opening = (x.message && x.header)) : Inv o c' (w.start o x) := by
  obtain ⟨hp, hr, hpast⟩ := h.idle ho
  unfold Ws.start
  cases hm : x.message with
  | false =>
    simp only [hm, Bool.false_and] at hc
    exact ⟨fun _ => ⟨hp, rfl, hpast⟩, fun h => by simp [hc] at h⟩
  | true =>
    cases hh : x.header with
    | false =>
      simp only [hm, hh, Bool.and_false] at hc
      refine ⟨fun _ => ⟨hp, rfl, ?_⟩, fun h => by simp [hc] at h⟩
      have := hpast.next Course.spoilt
      simpa using this
    | true =>
      simp only [hm, hh, Bool.and_self] at hc
      refine ⟨fun h => by simp [hc] at h, fun _ => ?_⟩
      cases ht : o.transformer with
      | true => exact ⟨w.made, w.log, _, rfl, rfl, hpast, by simp, .inl ⟨rfl, rfl, rfl⟩⟩
      | false =>
        refine ⟨w.made, w.log, prepared o w.made ++ [.connect w.made], rfl, rfl, hpast, by simp [Ws.complete, prepared, ht], ?_⟩
        cases x.opened with
        | true => exact .inr (.inl ⟨rfl, rfl⟩)
        | false => exact .inr (.inr ⟨rfl, .inr rfl⟩)

theorem Inv.setup (h : Inv o c w) (ho : c.opening = true) {x : Outside} {s : Setup}
    (he : w.phase = .failing ∧ s = .failed ∨ w.phase = .connecting ∧ (s = .refused → x.converted = false ∨ o.validator = true) ∧
      (s = .unsent ∨ s = .opened → x.converted = true))
    (hc : c'.opening = false) : Inv o c' (w.setup o x s) := by
  obtain ⟨r, l, t, hr, hm, hpast, hl, hcase⟩ := h.busy ho
  refine ⟨fun _ => ?_, fun h => by simp [hc] at h⟩
  have un : ∀ {t}, t = prepared o r ++ [.connect r] → Past o (r + 1) (l ++ t ++ [.released r]) := by
    intro t ht
    have := hpast.next (Course.unopened (o := o))
    simpa [tried, ht] using this
  rcases he with ⟨hf, rfl⟩ | ⟨hk, h1, h2⟩
  · refine ⟨by simp [Ws.setup, hr], by simp [Ws.setup, hr], ?_⟩
    simp only [Ws.setup, hr, if_true, hl, hm]
    rcases hcase with ⟨h, _⟩ | ⟨h, _⟩ | ⟨_, ⟨ht, rfl⟩ | ht⟩
    · rw [hf] at h; cases h
    · rw [hf] at h; cases h
    · simpa using hpast.next (Course.untransformed ht)
    · exact un ht
  · have ht : t = prepared o r ++ [.connect r] := by
      rcases hcase with ⟨h, _⟩ | ⟨_, h⟩ | ⟨h, _⟩
      · rw [hk] at h; cases h
      · exact h
      · rw [hk] at h; cases h
    have u := un ht
    have ref (hv : o.validator = true) : Past o (r + 1) (l ++ t ++ [.released r] ++ [.validate r false]) := by
      simpa [tried, ht] using hpast.next (Course.refused hv)
    have use : Past o (r + 1) (l ++ t ++ [.released r] ++ (if o.validator then [.validate r true] else []) ++ [.install r]) := by
      simpa [tried, ht] using hpast.next (Course.used (o := o))
    cases s with
    | failed =>
      refine ⟨by simp [Ws.setup, hr], by simp [Ws.setup, hr], ?_⟩
      simpa [Ws.setup, hr, hl, hm] using u
    | refused =>
      cases hx : x.converted with
      | false =>
        refine ⟨by simp [Ws.setup, hr, hx], by simp [Ws.setup, hr, hx], ?_⟩
        simpa [Ws.setup, hr, hl, hm, hx] using u
      | true =>
        have hv := (h1 rfl).resolve_left (by simp [hx])
        refine ⟨by simp [Ws.setup, hr, hx, hv], by simp [Ws.setup, hr, hx, hv], ?_⟩
        simpa [Ws.setup, hr, hl, hm, hx, hv] using ref hv
    | unsent =>
      have hx := h2 (.inl rfl)
      cases hv : o.validator <;> rw [hv] at use <;>
      · refine ⟨by simp [Ws.setup, hr, hx, hv], by simp [Ws.setup, hr, hx, hv], ?_⟩
        simpa [Ws.setup, hr, hl, hm, hx, hv] using use
    | opened =>
      have hx := h2 (.inr rfl)
      cases hv : o.validator <;> rw [hv] at use <;>
      · refine ⟨by simp [Ws.setup, hr, hx, hv], by simp [Ws.setup, hr, hx, hv], ?_⟩
        simpa [Ws.setup, hr, hl, hm, hx, hv] using use

theorem Inv.same (h : Inv o c w) (hc : c'.opening = c.opening) : Inv o c' w :=
  ⟨fun e => h.idle (hc ▸ e), fun e => h.busy (hc ▸ e)⟩

theorem Inv.step (h : Inv o c w) (hctl : Ctl c) {e : Event} (he : Enabled o c w e = true)
    (hs : Websocket311.step o c w e = .ok (c', w')) : Inv o c' w' := by
  cases e with
  | base e x =>
    simp only [Enabled, Bool.and_eq_true] at he
    obtain ⟨he, hx⟩ := he
    simp only [Websocket311.step] at hs
    split at hs
    · cases hs
    · rename_i d hd
      cases hs
      cases e with
      | launch ok =>
        simp only [decide_eq_true_eq] at hx
        simp only [Client311.Enabled, decide_eq_true_eq] at he
        have ho := (hctl.busyOpen (by simp [he])).1
        simp only [Client311.step] at hd
        cases hd
        refine h.begin ho x ?_
        rw [← hx]
        cases ok <;> simp [Conn.launch, ho]
      | attempt ok =>
        simp only [Client311.Enabled, decide_eq_true_eq] at he
        by_cases hst : c.state = .disconnecting
        · simp only [hst, if_true]
          exact h.same (step_opening hctl (by simpa [Client311.Enabled] using he) hd (by simp) (fun _ _ => hst) (by simp))
        · simp only [hst, false_or, decide_eq_true_eq] at hx
          have ho : c.opening = false := by
            rcases hctl.scheduled he.2 with h | h
            · rcases hctl.driver (by simp [h]) he.1 with ⟨_, _, h⟩ | ⟨h, _⟩ | ⟨h, _⟩
              · exact absurd he.2 h
              · exact h
              · exact h
            · exact absurd h hst
          simp only [hst, if_false]
          refine h.begin ho x ?_
          rw [← hx]
          simp only [Client311.step, Conn.attempt, hst, if_false] at hd
          cases ok
          · simp only [if_neg Bool.false_ne_true] at hd
            cases hd
            exact ho
          · simp only [if_true] at hd
            cases hd
            rfl
      | setup s =>
        simp only [decide_eq_true_eq] at hx
        simp only [Client311.Enabled, decide_eq_true_eq] at he
        simp only [Client311.step] at hd
        cases hd
        refine h.setup he.2 hx ?_
        cases s <;> simp [Conn.setup, Conn.shutdown] <;> split <;> rfl
      | _ => exact h.same (step_opening hctl he hd (by simp) (by simp) (by simp))
  | transformed error opened =>
    simp only [Enabled, decide_eq_true_eq] at he
    have ho : c.opening = true := by
      cases hb : c.opening with
      | true => rfl
      | false =>
        have := (h.idle hb).1
        rw [he] at this
        cases this
    obtain ⟨r, l, t, hr, hm, hpast, hl, hcase⟩ := h.busy ho
    simp only [Websocket311.step, hr] at hs
    cases hs
    have ht : o.transformer = true ∧ t = [.made r, .transform r] := by
      rcases hcase with ⟨_, h⟩ | ⟨h, _⟩ | ⟨h, _⟩
      · exact h
      · rw [he] at h; cases h
      · rw [he] at h; cases h
    refine ⟨fun h => by simp [ho] at h, fun _ => ?_⟩
    cases error with
    | true => exact ⟨r, l, t, hr, hm, hpast, hl, .inr (.inr ⟨rfl, .inl ht⟩)⟩
    | false =>
      refine ⟨r, l, prepared o r ++ [.connect r], hr, hm, hpast, by simp [Ws.complete, hl, ht.2, prepared, ht.1], ?_⟩
      cases opened with
      | true => exact .inr (.inl ⟨rfl, rfl⟩)
      | false => exact .inr (.inr ⟨rfl, .inr rfl⟩)

theorem Reachable.inv (h : Reachable o c w) : Inv o c w := by
  induction h with
  | init => exact ⟨fun _ => ⟨rfl, rfl, .nil⟩, fun h => by cases h⟩
  | step hr _ he hs ih => exact ih.step hr.conn.inv.1 he hs

/-- What a finished attempt has done with a request. -/
theorem Course.released {r k : Nat} {l : List Effect} (h : Course o r l) :
    l.count (.made k) = (if k = r then 1 else 0) ∧ l.count (.released k) = (if k = r then 1 else 0) := by
  by_cases hk : k = r
  · subst hk
    cases h <;> cases ht : o.transformer <;> cases hv : o.validator <;> simp_all [tried, prepared]
  · have hk' : r ≠ k := fun e => hk e.symm
    cases h <;> cases ht : o.transformer <;> cases hv : o.validator <;> simp_all [tried, prepared]

theorem Past.released {n k : Nat} {l : List Effect} (h : Past o n l) :
    l.count (.made k) = (if k < n then 1 else 0) ∧ l.count (.released k) = (if k < n then 1 else 0) := by
  induction h with
  | nil => simp
  | @next n l w _ hc ih =>
    rw [List.count_append, List.count_append, ih.1, ih.2, (hc.released).1, (hc.released).2]
    refine ⟨?_, ?_⟩ <;> repeat (first | omega | split)

/-- What a complete attempt says about its effects. -/
theorem Course.order {r : Nat} {t : List Effect} (h : Course o r t) {pre post : List Effect} {k : Nat} :
    (t = pre ++ .connect k :: post → k = r ∧ pre = prepared o r) ∧
    (t = pre ++ .install k :: post → k = r ∧ post = [] ∧
      pre = tried o r ++ if o.validator then [.validate r true] else []) := by
  have key : ∀ (e : Effect), t = pre ++ e :: post → ∃ i, pre = t.take i ∧ t[i]? = some e ∧ post = t.drop (i + 1) := by
    intro e h
    exact ⟨pre.length, by simp [h], by simp [h], by simp [h]⟩
  constructor <;> intro ht <;> obtain ⟨i, h1, h2, h3⟩ := key _ ht <;> clear ht key <;>
    cases h <;> cases htr : o.transformer <;> cases hv : o.validator <;>
    rcases i with _ | _ | _ | _ | _ | _ | i <;> simp_all [tried, prepared]

/-- An effect of the past belongs to one of its attempts. -/
theorem Past.split {n : Nat} {l : List Effect} (h : Past o n l) {pre post : List Effect} {e : Effect}
    (hl : l = pre ++ e :: post) : ∃ r l' p q t, r < n ∧ Past o r l' ∧ Course o r t ∧ t = p ++ e :: q ∧ pre = l' ++ p := by
  induction h generalizing pre post with
  | nil => simp at hl
  | @next n l t hp hc ih =>
    rcases List.append_eq_append_iff.1 hl with ⟨a, h1, h2⟩ | ⟨a, h1, h2⟩
    · exact ⟨n, l, a, post, t, by omega, hp, hc, h2, h1⟩
    · cases a with
      | nil =>
        simp only [List.nil_append] at h2
        exact ⟨n, l, [], post, t, by omega, hp, hc, by simp [h2], by simp [h1]⟩
      | cons x a =>
        simp only [List.cons_append, List.cons.injEq] at h2
        obtain ⟨rfl, _⟩ := h2
        obtain ⟨r, l', p, q, t', hr, rest⟩ := ih h1
        exact ⟨r, l', p, q, t', by omega, rest⟩

end Mqtt.Websocket311
