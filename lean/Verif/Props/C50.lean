import Verif.Lemmas.Client311Stats

/-! C50: 3.1.1 client: operation statistics equal the real counts. -/
namespace Mqtt.Props
open Mqtt.Client311

variable {allowed : Conn → Event → Prop} {c : Conn}

theorem sum_cost {g : AMap Nat Request} {f : Request → Int} {p : Request → Bool} (h1 : ∀ u r, (u, r) ∈ g → p r = true → f r = 1)
    (h0 : ∀ u r, (u, r) ∈ g → p r = false → f r = 0) :
    (g.map fun e => f e.2).sum = ((g.filter fun e => p e.2).length : Int) := by
  induction g with
  | nil => rfl
  | cons e g ih =>
    have ih := ih (fun u r h => h1 u r (List.mem_cons_of_mem _ h)) (fun u r h => h0 u r (List.mem_cons_of_mem _ h))
    rw [List.map_cons, List.sum_cons, ih, List.filter_cons]
    cases hp : p e.2 with
    | true =>
      rw [h1 e.1 e.2 (List.mem_cons_self ..) hp]
      simp
      omega
    | false =>
      rw [h0 e.1 e.2 (List.mem_cons_self ..) hp]
      simp

theorem sum_size {g : AMap Nat Request} {f : Request → Int} {p : Request → Bool}
    (h1 : ∀ u r, (u, r) ∈ g → p r = true → f r = r.size) (h0 : ∀ u r, (u, r) ∈ g → p r = false → f r = 0) :
    (g.map fun e => f e.2).sum = (((g.filter fun e => p e.2).map fun e => e.2.size).sum : Nat) := by
  induction g with
  | nil => rfl
  | cons e g ih =>
    have ih := ih (fun u r h => h1 u r (List.mem_cons_of_mem _ h)) (fun u r h => h0 u r (List.mem_cons_of_mem _ h))
    rw [List.map_cons, List.sum_cons, ih, List.filter_cons]
    cases hp : p e.2 with
    | true =>
      rw [h1 e.1 e.2 (List.mem_cons_self ..) hp]
      simp
    | false =>
      rw [h0 e.1 e.2 (List.mem_cons_self ..) hp]
      simp

/-- The requests of a tally that satisfy `p`. -/
theorem amount_of {strict : Prop} {g : AMap Nat Request} (h : Client311.Reachable allowed c) (t : Tally strict c g)
    {p : Request → Bool} (hp : ∀ r, p r = true → r.size ≠ 0) {q : Nat → Prop} {n s : Int}
    (hq : ∀ u r, g.get u = some r → p r = true → q u)
    (hb : ∀ u, q u → (∃ id kind n, kind ≠ .ping ∧ Trace.accepted u id kind n ∈ c.log) → ∃ r, g.get u = some r ∧ p r = true)
    (hn : n = ((g.filter fun e => p e.2).length : Int))
    (hs : s = (((g.filter fun e => p e.2).map fun e => e.2.size).sum : Nat)) : Amount c.log q n s := by
  obtain ⟨⟨done, _, hst⟩, _⟩ := h.inv.2
  refine ⟨(g.filter fun e => p e.2).map fun e => (e.1, e.2.size), ?_, ?_, ?_, ?_⟩
  · rw [List.map_map]
    exact List.Nodup.sublist (List.Sublist.map _ List.filter_sublist) t.keys
  · intro u m
    constructor
    · intro hm
      obtain ⟨e, he, heq⟩ := List.mem_map.1 hm
      obtain ⟨he, hpe⟩ := List.mem_filter.1 he
      cases heq
      have hg := (AMap.mem_iff_get t.keys).1 he
      exact ⟨⟨e.2.id, e.2.kind, fun hk => hp _ hpe ((t.size _ _ hg).2 hk), t.told _ _ hg⟩, hq _ _ hg hpe⟩
    · rintro ⟨⟨id, kind, hk, ha⟩, hqu⟩
      obtain ⟨r, hr, hpr⟩ := hb u hqu ⟨id, kind, m, hk, ha⟩
      obtain ⟨_, _, e⟩ := hst.uniq _ _ _ _ _ _ _ ha (t.told u r hr)
      refine List.mem_map.2 ⟨(u, r), List.mem_filter.2 ⟨(AMap.mem_iff_get t.keys).2 hr, hpr⟩, ?_⟩
      simp [e]
  · rw [hn]; simp
  · rw [hs, List.map_map]; rfl

/-- In every history the counters of incomplete operations are those of the operations that have not been completed
and of those that have been cancelled for a clean session. -/
theorem C50_incomplete (h : Client311.Reachable allowed c) (hd : c.destroyed = false) :
    Amount c.log (fun u => completions c.log u = 0 ∨ .completed u .cleanSession ∈ c.log) c.incompleteCount
      c.incompleteSize := by
  obtain ⟨g, t⟩ := h.counted (strict := False) (fun h => h.elim) hd
  have hmem : ∀ u r, (u, r) ∈ g → g.get u = some r := fun u r => (AMap.mem_iff_get t.keys).1
  refine amount_of h t (p := fun r => r.size ≠ 0) (by simp) (fun u r hr _ => t.only u r hr) ?_ ?_ ?_
  · rintro u hu ⟨id, kind, n, hk, ha⟩
    have key : ∃ r, g.get u = some r := by
      rcases hu with hu | hu
      · obtain ⟨_, _, r, hr, _⟩ := h.outstanding ⟨ha, hu⟩
        exact ⟨r, t.holds u r hr⟩
      · exact t.drop u hu
    obtain ⟨r, hr⟩ := key
    refine ⟨r, hr, ?_⟩
    obtain ⟨⟨done, _, hst⟩, _⟩ := h.inv.2
    obtain ⟨_, e, _⟩ := hst.uniq _ _ _ _ _ _ _ ha (t.told u r hr)
    simp only [ne_eq, decide_not, Bool.not_eq_eq_eq_not, Bool.not_true, decide_eq_false_iff_not]
    exact fun hz => hk (e.trans ((t.size u r hr).1 hz))
  · refine (t.count .incompleteCount).trans (sum_cost (p := fun r => r.size ≠ 0) ?_ ?_)
    · intro u r hr hp
      have hz : r.size ≠ 0 := by simpa using hp
      simp [cost, weight, hz, t.inc u r (hmem u r hr) hz, delta]
    · intro u r hr hp
      have hz : r.size = 0 := by simpa using hp
      simp [cost, weight, hz]
  · refine (t.count .incompleteSize).trans (sum_size (p := fun r => r.size ≠ 0) ?_ ?_)
    · intro u r hr hp
      have hz : r.size ≠ 0 := by simpa using hp
      simp [cost, weight, hz, t.inc u r (hmem u r hr) hz, delta]
    · intro u r hr hp
      have hz : r.size = 0 := by simpa using hp
      simp [cost, weight, hz]

theorem Amount.congr {log : List Trace} {p q : Nat → Prop} {n s : Int} (h : Amount log p n s) (e : ∀ u, p u ↔ q u) :
    Amount log q n s := by
  obtain ⟨l, h1, h2, h3⟩ := h
  exact ⟨l, h1, fun u m => by rw [h2, e], h3⟩

/-- As long as no operation has been cancelled for a clean session, the counters of incomplete operations are those of
the operations that have not been completed. -/
theorem C50_partial (h : Client311.Reachable allowed c) (hd : c.destroyed = false)
    (hp : ∀ u, .completed u .cleanSession ∉ c.log) :
    Amount c.log (fun u => completions c.log u = 0) c.incompleteCount c.incompleteSize :=
  Amount.congr (C50_incomplete h hd) fun u => ⟨fun h => h.resolve_right (hp u), .inl⟩

theorem unacked_sums {strict : Prop} {g : AMap Nat Request} (t : Tally strict c g) :
    c.unackedCount = ((g.filter fun e => e.2.size ≠ 0 && e.2.unacked).length : Int) ∧
    c.unackedSize = (((g.filter fun e => e.2.size ≠ 0 && e.2.unacked).map fun e => e.2.size).sum : Nat) := by
  constructor
  · refine (t.count .unackedCount).trans (sum_cost (p := fun r => r.size ≠ 0 && r.unacked) ?_ ?_)
    · intro u r hr hp
      simp only [ne_eq, decide_not, Bool.and_eq_true, Bool.not_eq_eq_eq_not, Bool.not_true, decide_eq_false_iff_not] at hp
      simp [cost, weight, hp.1, hp.2, delta]
    · intro u r hr hp
      simp only [ne_eq, decide_not, Bool.and_eq_false_iff, Bool.not_eq_false', decide_eq_true_eq] at hp
      rcases hp with hz | hz
      · simp [cost, weight, hz]
      · simp [cost, weight, hz, delta]
  · refine (t.count .unackedSize).trans (sum_size (p := fun r => r.size ≠ 0 && r.unacked) ?_ ?_)
    · intro u r hr hp
      simp only [ne_eq, decide_not, Bool.and_eq_true, Bool.not_eq_eq_eq_not, Bool.not_true, decide_eq_false_iff_not] at hp
      simp [cost, weight, hp.1, hp.2, delta]
    · intro u r hr hp
      simp only [ne_eq, decide_not, Bool.and_eq_false_iff, Bool.not_eq_false', decide_eq_true_eq] at hp
      rcases hp with hz | hz
      · simp [cost, weight, hz]
      · simp [cost, weight, hz, delta]

/-- Where no operation has been cancelled for a clean session, the counters of unacknowledged operations are those of
operations that have been sent and not completed; all that have been sent on the current channel are among them. -/
theorem C50_partial_unacked (h : Client311.Reachable allowed c) (hd : c.destroyed = false)
    (hp : ∀ u, .completed u .cleanSession ∉ c.log) :
    ∃ q : Nat → Prop, Amount c.log q c.unackedCount c.unackedSize ∧
      (∀ u, q u → completions c.log u = 0 ∧ ∃ n, SentOn c.log u n) ∧
      (∀ u n id kind size, Outstanding c.log u id kind size → kind ≠ .ping → c.chan = some n → SentOn c.log u n → q u) := by
  obtain ⟨g, t⟩ := h.counted (strict := False) (fun h => h.elim) hd
  obtain ⟨e1, e2⟩ := unacked_sums t
  refine ⟨fun u => ∃ r, g.get u = some r ∧ r.size ≠ 0 ∧ r.unacked = true, ?_, ?_, ?_⟩
  · refine amount_of h t (p := fun r => r.size ≠ 0 && r.unacked) ?_ ?_ ?_ e1 e2
    · intro r hr
      simp only [ne_eq, decide_not, Bool.and_eq_true, Bool.not_eq_eq_eq_not, Bool.not_true, decide_eq_false_iff_not] at hr
      exact hr.1
    · intro u r hr hpr
      simp only [ne_eq, decide_not, Bool.and_eq_true, Bool.not_eq_eq_eq_not, Bool.not_true, decide_eq_false_iff_not] at hpr
      exact ⟨r, hr, hpr.1, hpr.2⟩
    · rintro u ⟨r, hr, h1, h2⟩ _
      exact ⟨r, hr, by simp [h1, h2]⟩
  · rintro u ⟨r, hr, hz, hu⟩
    exact ⟨(t.only u r hr).resolve_right (hp u), (t.begun u r hr).1 (t.sent u r hr hu)⟩
  · intro u n id kind size ho hk hn hs
    obtain ⟨_, _, r, hr, _, e3, _⟩ := h.outstanding ho
    have hg := t.holds u r hr
    exact ⟨r, hg, fun hz => hk (e3.symm.trans ((t.size u r hg).1 hz)), t.wait u ((h.ongoing_iff hn ho).2 hs) r hg⟩

/-- If moreover no outgoing task of an operation that has been sent before is cancelled, the counters of unacknowledged
operations are those of the operations that have been sent and not completed. -/
theorem C50_partial_uncancelled (h : Client311.Reachable allowed c) (hd : c.destroyed = false)
    (hp : ∀ u, .completed u .cleanSession ∉ c.log)
    (hx : ∀ c k t, allowed c (.cancel k) → c.tasks[k]? = some t → ∀ n, ¬ SentOn c.log t.1 n) :
    Amount c.log (fun u => completions c.log u = 0 ∧ ∃ n, SentOn c.log u n) c.unackedCount c.unackedSize := by
  obtain ⟨g, t⟩ := h.counted (strict := True) (fun _ => hx) hd
  obtain ⟨e1, e2⟩ := unacked_sums t
  refine amount_of h t (p := fun r => r.size ≠ 0 && r.unacked) ?_ ?_ ?_ e1 e2
  · intro r hr
    simp only [ne_eq, decide_not, Bool.and_eq_true, Bool.not_eq_eq_eq_not, Bool.not_true, decide_eq_false_iff_not] at hr
    exact hr.1
  · intro u r hr hpr
    simp only [ne_eq, decide_not, Bool.and_eq_true, Bool.not_eq_eq_eq_not, Bool.not_true, decide_eq_false_iff_not] at hpr
    exact ⟨(t.only u r hr).resolve_right (hp u), (t.begun u r hr).1 (t.sent u r hr hpr.2)⟩
  · rintro u ⟨h0, hs⟩ ⟨id, kind, n, hk, ha⟩
    obtain ⟨_, _, r, hr, _, e3, _⟩ := h.outstanding ⟨ha, h0⟩
    have hg := t.holds u r hr
    have hz : r.size ≠ 0 := fun hz => hk (e3.symm.trans ((t.size u r hg).1 hz))
    exact ⟨r, hg, by simp [hz, t.exact' trivial u r hg ((t.begun u r hg).2 hs)]⟩

theorem Amount.zero {log : List Trace} {p : Nat → Prop} {n s : Int} (h : Amount log p n s)
    (hp : ∀ u id kind m, Trace.accepted u id kind m ∈ log → ¬ p u) : n = 0 ∧ s = 0 := by
  obtain ⟨l, _, h2, h3, h4⟩ := h
  cases l with
  | nil => exact ⟨h3, h4⟩
  | cons e l =>
    obtain ⟨⟨id, kind, _, ha⟩, hu⟩ := (h2 e.1 e.2).1 (List.mem_cons_self ..)
    exact absurd hu (hp _ _ _ _ ha)

/-- An operation is pending when the connection is established with a clean session; it is cancelled. -/
def C50_clean : List Event := [.create (.publish 1) 10, .connect true, .advance, .advance, .launch true]

/-- An operation that is cancelled for a clean session is counted as incomplete for ever. -/
theorem C50_violated : ∃ c, Client311.Reachable (fun _ _ => True) c ∧ c.destroyed = false ∧ c.incompleteCount = 1 ∧
    ¬ Amount c.log (fun u => completions c.log u = 0) c.incompleteCount c.incompleteSize := by
  refine ⟨_, reachable_after C50_clean, by decide +kernel, by decide +kernel, ?_⟩
  intro h
  have h1 : (after C50_clean).incompleteCount = 1 := by decide +kernel
  have hl : (after C50_clean).log = [.accepted 0 1 (.publish 1) 10, .completed 0 .cleanSession, .connecting] := by
    decide +kernel
  have := (Amount.zero h (by
    intro u id kind m hm
    rw [hl] at hm ⊢
    simp only [List.mem_cons, List.not_mem_nil, or_false, reduceCtorEq] at hm
    cases hm
    decide)).1
  rw [h1] at this
  cases this

/-- An operation is sent and the connection is lost; after the reconnect its task is cancelled as the channel is shut
down again. -/
def C50_lost : List Event :=
  [.connect false, .advance, .launch true, .setup .opened, .packet (.connack true), .create (.publish 1) 10,
   .run 0 (.ongoing true 0), .close, .shutdown, .advance, .advance, .attempt true, .setup .opened,
   .packet (.connack true), .close, .cancel 0]

/-- An operation that has been sent and is not acknowledged is not counted as unacknowledged. -/
theorem C50_violated_unacked : ∃ c, Client311.Reachable (fun _ _ => True) c ∧ c.destroyed = false ∧
    c.unackedCount = 0 ∧ (∀ u, .completed u .cleanSession ∉ c.log) ∧
    ¬ Amount c.log (fun u => completions c.log u = 0 ∧ ∃ n, SentOn c.log u n) c.unackedCount c.unackedSize := by
  have hl : (after C50_lost).log = [.connecting, .opened 0, .processed 0 (.connack true), .connectionComplete true,
      .accepted 0 1 (.publish 1) 10, .sent 0 0 false, .interrupted, .opened 1, .processed 1 (.connack true), .resumed] := by
    decide +kernel
  have h0 : (after C50_lost).unackedCount = 0 := by decide +kernel
  refine ⟨_, reachable_after C50_lost, by decide +kernel, h0, ?_, ?_⟩
  · intro u
    rw [hl]
    simp
  · rintro ⟨l, _, h2, h3, _⟩
    rw [h0] at h3
    have hn : l = [] := List.eq_nil_of_length_eq_zero (by omega)
    subst hn
    have := (h2 0 10).2 ⟨⟨1, .publish 1, by simp, by rw [hl]; simp⟩, by rw [hl]; decide, 0, false, by rw [hl]; simp⟩
    simp at this

/-- Two operations are outstanding, one of them has been sent. -/
example : (after [.create (.publish 1) 7, .connect false, .advance, .launch true, .setup .opened, .packet (.connack true),
    .create .unsubscribe 11, .run 0 (.ongoing true 0)]).incompleteCount = 2 ∧
    (after [.create (.publish 1) 7, .connect false, .advance, .launch true, .setup .opened, .packet (.connack true),
    .create .unsubscribe 11, .run 0 (.ongoing true 0)]).unackedSize = 7 := by decide +kernel

end Mqtt.Props
