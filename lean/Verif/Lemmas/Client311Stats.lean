import Verif.Lemmas.Client311Spec

/-! The statistics of the 3.1.1 connection. -/
namespace Mqtt.Client311

/-- The four counters of `operation_statistics_impl`. -/
inductive Counter where
  | incompleteCount
  | incompleteSize
  | unackedCount
  | unackedSize

def Conn.counter (c : Conn) : Counter → Int
  | .incompleteCount => c.incompleteCount
  | .incompleteSize => c.incompleteSize
  | .unackedCount => c.unackedCount
  | .unackedSize => c.unackedSize

/-- What a request contributes to a counter. -/
def cost (i : Counter) (r : Request) : Int :=
  match i with
  | .incompleteCount => weight r false r.incomplete
  | .incompleteSize => weight r false r.incomplete * r.size
  | .unackedCount => weight r false r.unacked
  | .unackedSize => weight r false r.unacked * r.size

def total (i : Counter) (g : AMap Nat Request) : Int := (g.map fun e => cost i e.2).sum

theorem sum_perm {l l' : List Int} (h : l.Perm l') : l.sum = l'.sum := by
  induction h with
  | nil => rfl
  | cons a _ ih => simp [ih]
  | swap a b l => simp only [List.sum_cons]; omega
  | trans _ _ ih1 ih2 => exact ih1.trans ih2

theorem total_perm {i : Counter} {g g' : AMap Nat Request} (h : g.Perm g') : total i g = total i g' :=
  sum_perm (h.map _)

theorem total_cons {i : Counter} {g : AMap Nat Request} {u : Nat} {r : Request} :
    total i ((u, r) :: g) = cost i r + total i g := by
  simp [total]

theorem total_del {i : Counter} {g : AMap Nat Request} (hg : AMap.Nodup g) {u : Nat} {r : Request}
    (h : g.get u = some r) : total i (g.del u) = total i g - cost i r := by
  rw [total_perm (AMap.perm_del hg h), total_cons]
  omega

theorem total_set_new {i : Counter} {g : AMap Nat Request} {u : Nat} (r : Request) (h : g.get u = none) :
    total i (g.set u r) = total i g + cost i r := by
  rw [total_perm (AMap.perm_set u r h), total_cons]
  omega

theorem total_set {i : Counter} {g : AMap Nat Request} (hg : AMap.Nodup g) {u : Nat} {r : Request} (r' : Request)
    (h : g.get u = some r) : total i (g.set u r') = total i g - cost i r + cost i r' := by
  have : g.set u r' = (g.del u).set u r' := by simp [AMap.set, AMap.del]
  rw [this, total_set_new r' (AMap.get_del_same ..), total_del hg h]

theorem weight_sub (r : Request) (a b : Bool) : weight r a b = weight r false b - weight r false a := by
  unfold weight
  split
  · rfl
  · cases a <;> cases b <;> rfl

theorem complete_counter {c : Conn} {u : Nat} {r : Request} (h : c.reqs.get u = some r) (o : Outcome) (i : Counter) :
    (c.complete u o).counter i = c.counter i - cost i r := by
  rw [complete_eq h]
  have h0 : weight r false false = 0 := by unfold weight; split <;> rfl
  cases i <;> simp only [Conn.counter, cost] <;> rw [weight_sub, h0] <;>
    simp only [Int.sub_eq_add_neg, Int.zero_add, Int.neg_mul]

theorem change_counter {c : Conn} {u : Nat} {r : Request} (h : c.reqs.get u = some r) (a b : Bool)
    (i : Counter) : (c.change u a b).counter i =
      c.counter i - cost i r + cost i { r with incomplete := a, unacked := b } := by
  rw [change_eq h]
  have hw : ∀ x y, weight { r with incomplete := a, unacked := b } x y = weight r x y := fun _ _ => rfl
  cases i <;> simp only [Conn.counter, cost, hw] <;> rw [weight_sub] <;> (try simp only [Int.sub_mul]) <;> omega

/-- `completed u cleanSession` is in the log. -/
def Dropped (log : List Trace) (u : Nat) : Prop := Trace.completed u .cleanSession ∈ log

/-- The requests that are counted: those that are not completed, and those that have been cancelled for a clean
session. With `strict`, no request is cancelled that has been sent before. -/
structure Tally (strict : Prop) (c : Conn) (g : AMap Nat Request) : Prop where
  keys : AMap.Nodup g
  holds : ∀ u r, c.reqs.get u = some r → g.get u = some r
  only : ∀ u r, g.get u = some r → completions c.log u = 0 ∨ Dropped c.log u
  told : ∀ u r, g.get u = some r → Trace.accepted u r.id r.kind r.size ∈ c.log
  drop : ∀ u, Dropped c.log u → ∃ r, g.get u = some r
  size : ∀ u r, g.get u = some r → (r.size = 0 ↔ r.kind = .ping)
  inc : ∀ u r, g.get u = some r → r.size ≠ 0 → r.incomplete = true
  begun : ∀ u r, g.get u = some r → (r.initiated = true ↔ ∃ n, SentOn c.log u n)
  sent : ∀ u r, g.get u = some r → r.unacked = true → r.initiated = true
  wait : ∀ u ∈ c.ongoing, ∀ r, g.get u = some r → r.unacked = true
  exact' : strict → ∀ u r, g.get u = some r → r.initiated = true → r.unacked = true
  count : ∀ i, c.counter i = total i g

variable {strict : Prop} {g : AMap Nat Request}

theorem Tally.init : Tally strict {} [] where
  keys := AMap.nodup_nil
  holds := fun u r h => by simp at h
  only := fun u r h => by simp at h
  told := fun u r h => by simp at h
  drop := fun u h => by simp [Dropped] at h
  size := fun u r h => by simp at h
  inc := fun u r h => by simp at h
  begun := fun u r h => by simp at h
  sent := fun u r h => by simp at h
  wait := fun u h => by simp at h
  exact' := fun _ u r h => by simp at h
  count := fun i => by cases i <;> rfl

/-- Entries of the log that concern no request. -/
def aside (t : Trace) : Bool := quiet t && !isSend t

/-- Nothing happens to the requests, except that some are released. -/
structure Still (c f : Conn) : Prop where
  reqs : ∀ u r, f.reqs.get u = some r → c.reqs.get u = some r
  counter : ∀ i, f.counter i = c.counter i
  log : ∃ l, f.log = c.log ++ l ∧ ∀ t ∈ l, aside t = true
  ongoing : ∀ u ∈ f.ongoing, u ∈ c.ongoing

theorem Still.of {c f : Conn} (h1 : f.reqs = c.reqs) (h2 : ∀ i, f.counter i = c.counter i) (l : List Trace)
    (h3 : f.log = c.log ++ l) (h4 : ∀ t ∈ l, aside t = true) (h5 : ∀ u ∈ f.ongoing, u ∈ c.ongoing) : Still c f :=
  ⟨fun _ _ h => h1 ▸ h, h2, ⟨l, h3, h4⟩, h5⟩

theorem Still.trans {a b c : Conn} (h1 : Still a b) (h2 : Still b c) : Still a c := by
  obtain ⟨l, e, hl⟩ := h1.log
  obtain ⟨m, e2, hm⟩ := h2.log
  refine ⟨fun u r h => h1.reqs u r (h2.reqs u r h), fun i => (h2.counter i).trans (h1.counter i),
    ⟨l ++ m, by rw [e2, e, List.append_assoc], ?_⟩, fun u h => h1.ongoing u (h2.ongoing u h)⟩
  intro t ht
  rcases List.mem_append.1 ht with h | h
  · exact hl t h
  · exact hm t h

theorem Still.after {a b c : Conn} (h2 : Still b c) (h1 : Still a b) : Still a c := h1.trans h2

theorem Still.tell (c : Conn) {t : Trace} (ht : aside t = true) : Still c (c.tell t) :=
  Still.of rfl (fun i => by cases i <;> rfl) [t] rfl (by simpa using ht) (fun _ h => h)

theorem dropped_append {log l : List Trace} {u : Nat} : Dropped (log ++ l) u ↔ Dropped log u ∨ Dropped l u :=
  List.mem_append

theorem not_dropped {l : List Trace} (hl : ∀ t ∈ l, quiet t = true) {u : Nat} : ¬ Dropped l u := by
  intro h
  have := hl _ h
  simp [quiet] at this

theorem aside_quiet {l : List Trace} (h : ∀ t ∈ l, aside t = true) : ∀ t ∈ l, quiet t = true := by
  intro t ht
  have := h t ht
  simp only [aside, Bool.and_eq_true] at this
  exact this.1

theorem aside_send {l : List Trace} (h : ∀ t ∈ l, aside t = true) : ∀ t ∈ l, isSend t = false := by
  intro t ht
  have := h t ht
  simp only [aside, Bool.and_eq_true, Bool.not_eq_true'] at this
  exact this.2

theorem Tally.still {c f : Conn} (h : Tally strict c g) (s : Still c f) : Tally strict f g := by
  obtain ⟨l, e, hl⟩ := s.log
  have hq := aside_quiet hl
  have hsn := aside_send hl
  have hd : ∀ u, Dropped f.log u ↔ Dropped c.log u := by
    intro u
    rw [e, dropped_append]
    exact ⟨fun h => h.elim (fun h => h) (fun h => (not_dropped hq h).elim), .inl⟩
  refine ⟨h.keys, fun u r hr => h.holds u r (s.reqs u r hr), ?_, ?_, ?_, h.size, h.inc, ?_, h.sent,
    fun u hu => h.wait u (s.ongoing u hu), h.exact', fun i => (s.counter i).trans (h.count i)⟩
  · intro u r hr
    rw [hd, e, completions_append, completions_quiet hq]
    exact h.only u r hr
  · intro u r hr
    rw [e]
    exact List.mem_append_left _ (h.told u r hr)
  · intro u hu
    exact h.drop u ((hd u).1 hu)
  · intro u r hr
    rw [h.begun u r hr, e]
    simp only [sentOn_calm hsn]

theorem get_del_ne {m : AMap Nat Request} {u v : Nat} {r : Request} (h : (m.del u).get v = some r) :
    v ≠ u ∧ m.get v = some r := by
  rw [AMap.get_del] at h
  split at h
  · cases h
  · next e => exact ⟨e, h⟩

/-- A request is completed and released. -/
theorem Tally.complete {c f : Conn} (h : Tally strict c g) {u : Nat} {r : Request} {o : Outcome} {l : List Trace}
    (hr : c.reqs.get u = some r) (h0 : completions c.log u = 0) (ho : o ≠ .cleanSession)
    (e1 : f.reqs = c.reqs.del u) (e2 : f.log = c.log ++ (l ++ [.completed u o])) (hq : ∀ t ∈ l, quiet t = true)
    (hs : ∀ v n, SentOn l v n → v = u) (e3 : ∀ i, f.counter i = (c.complete u o).counter i)
    (e4 : ∀ v ∈ f.ongoing, v ∈ c.ongoing) : Tally strict f (g.del u) := by
  have hg := h.holds u r hr
  have hd : ∀ v, Dropped f.log v ↔ Dropped c.log v := by
    intro v
    rw [e2, dropped_append, dropped_append]
    refine ⟨?_, .inl⟩
    rintro (h | h | h)
    · exact h
    · exact (not_dropped hq h).elim
    · simp only [Dropped, List.mem_singleton, Trace.completed.injEq] at h
      exact absurd h.2.symm ho
  have hu : ¬ Dropped c.log u := by
    intro hm
    unfold completions at h0
    rw [List.countP_eq_zero] at h0
    exact h0 _ hm (by simp [isCompletion])
  refine ⟨AMap.nodup_del h.keys u, ?_, ?_, ?_, ?_, ?_, ?_, ?_, ?_, ?_, ?_, ?_⟩
  · intro v s hv
    rw [e1] at hv
    obtain ⟨hn, hv⟩ := get_del_ne hv
    rw [AMap.get_del, if_neg hn]
    exact h.holds v s hv
  · intro v s hv
    obtain ⟨hn, hv⟩ := get_del_ne hv
    rw [hd, e2, completions_append, completions_append, completions_quiet hq, completions_one, if_neg (Ne.symm hn)]
    exact h.only v s hv
  · intro v s hv
    rw [e2]
    exact List.mem_append_left _ (h.told v s (get_del_ne hv).2)
  · intro v hv
    have hv := (hd v).1 hv
    obtain ⟨s, hs⟩ := h.drop v hv
    refine ⟨s, ?_⟩
    rw [AMap.get_del, if_neg, hs]
    rintro rfl
    exact hu hv
  · exact fun v s hv => h.size v s (get_del_ne hv).2
  · exact fun v s hv => h.inc v s (get_del_ne hv).2
  · intro v s hv
    obtain ⟨hn, hv⟩ := get_del_ne hv
    rw [h.begun v s hv, e2]
    constructor
    · rintro ⟨n, hn⟩
      exact ⟨n, sentOn_append.2 (.inl hn)⟩
    · rintro ⟨n, hsn⟩
      rcases sentOn_append.1 hsn with hsn | hsn
      · exact ⟨n, hsn⟩
      · rcases sentOn_append.1 hsn with hsn | hsn
        · exact absurd (hs v n hsn) hn
        · exact (not_sentOn (l := [.completed u o]) (by simp [isSend]) hsn).elim
  · exact fun v s hv => h.sent v s (get_del_ne hv).2
  · exact fun v hv s hs => h.wait v (e4 v hv) s (get_del_ne hs).2
  · exact fun hst v s hv => h.exact' hst v s (get_del_ne hv).2
  · intro i
    rw [e3, complete_counter hr, total_del h.keys hg, h.count]

/-- A request is made. -/
theorem Tally.create {c f : Conn} (h : Tally strict c g) (hh : Held c) {kind : Kind} {id size : Nat}
    (hk : size = 0 ↔ kind = .ping) (hb : ∀ u n, SentOn c.log u n → u < c.nextUid)
    (e1 : f.reqs = c.reqs.set c.nextUid (newRequest kind id size))
    (e2 : f.log = c.log ++ [.accepted c.nextUid id kind size])
    (e3 : ∀ i, f.counter i = (c.added kind id size).counter i) (e4 : f.ongoing = c.ongoing) :
    Tally strict f (g.set c.nextUid (newRequest kind id size)) := by
  obtain ⟨⟨done, _, hs⟩, _⟩ := hh
  have hn : ∀ u r, g.get u = some r → u < c.nextUid := fun u r hr => (hs.acc u).1 ⟨_, _, _, h.told u r hr⟩
  have hg : g.get c.nextUid = none := by
    cases hg : g.get c.nextUid with
    | none => rfl
    | some r => exact absurd (hn _ _ hg) (Nat.lt_irrefl _)
  have hcases : ∀ {u r}, (g.set c.nextUid (newRequest kind id size)).get u = some r →
      (u = c.nextUid ∧ r = newRequest kind id size) ∨ (u ≠ c.nextUid ∧ g.get u = some r) := by
    intro u r hr
    rw [AMap.get_set] at hr
    split at hr
    · next e => cases hr; exact .inl ⟨e, rfl⟩
    · next e => exact .inr ⟨e, hr⟩
  have hd : ∀ v, Dropped f.log v ↔ Dropped c.log v := by
    intro v
    rw [e2, dropped_append]
    refine ⟨?_, .inl⟩
    rintro (h | h)
    · exact h
    · simp [Dropped] at h
  have hc : ∀ v, completions f.log v = completions c.log v := by
    intro v
    rw [e2, completions_append]
    simp [completions, isCompletion]
  have hsn : ∀ v n, SentOn f.log v n ↔ SentOn c.log v n := by
    intro v n
    rw [e2]
    exact sentOn_calm (by simp [isSend])
  refine ⟨AMap.nodup_set h.keys _ _, ?_, ?_, ?_, ?_, ?_, ?_, ?_, ?_, ?_, ?_, ?_⟩
  · intro v s hv
    rw [e1, AMap.get_set] at hv
    rw [AMap.get_set]
    split
    · next e => rw [if_pos e] at hv; exact hv
    · next e => rw [if_neg e] at hv; exact h.holds v s hv
  · intro v s hv
    rw [hd, hc]
    rcases hcases hv with ⟨rfl, _⟩ | ⟨_, hv⟩
    · left
      rw [hs.once, if_neg fun h => Nat.lt_irrefl _ h.1]
    · exact h.only v s hv
  · intro v s hv
    rw [e2]
    rcases hcases hv with ⟨rfl, rfl⟩ | ⟨_, hv⟩
    · exact List.mem_append_right _ (List.mem_singleton.2 rfl)
    · exact List.mem_append_left _ (h.told v s hv)
  · intro v hv
    obtain ⟨s, hv⟩ := h.drop v ((hd v).1 hv)
    have := hn v s hv
    exact ⟨s, by rw [AMap.get_set, if_neg (by omega)]; exact hv⟩
  · intro v s hv
    rcases hcases hv with ⟨rfl, rfl⟩ | ⟨_, hv⟩
    · exact hk
    · exact h.size v s hv
  · intro v s hv
    rcases hcases hv with ⟨rfl, rfl⟩ | ⟨_, hv⟩
    · intro hz
      simpa [newRequest] using hz
    · exact h.inc v s hv
  · intro v s hv
    simp only [hsn]
    rcases hcases hv with ⟨rfl, rfl⟩ | ⟨_, hv⟩
    · refine ⟨(fun h => by cases h), ?_⟩
      rintro ⟨n, hn⟩
      exact absurd (hb _ _ hn) (Nat.lt_irrefl _)
    · exact h.begun v s hv
  · intro v s hv
    rcases hcases hv with ⟨rfl, rfl⟩ | ⟨_, hv⟩
    · intro h; cases h
    · exact h.sent v s hv
  · intro v hv s hs'
    rw [e4] at hv
    rcases hcases hs' with ⟨rfl, rfl⟩ | ⟨_, hs'⟩
    · have : c.nextUid ∈ c.live := by simp only [Conn.live, List.mem_append]; exact .inl (.inl (.inr hv))
      exact absurd (hs.live_below this) (Nat.lt_irrefl _)
    · exact h.wait v hv s hs'
  · intro hst v s hv
    rcases hcases hv with ⟨rfl, rfl⟩ | ⟨_, hv⟩
    · intro h; cases h
    · exact h.exact' hst v s hv
  · intro i
    rw [e3, total_set_new _ hg, ← h.count]
    have h0 : weight (newRequest kind id size) false false = 0 := by unfold weight; split <;> rfl
    by_cases hz : size = 0
    · subst hz
      cases i <;> simp [Conn.counter, Conn.added, cost, weight, newRequest]
    · cases i <;> simp [Conn.counter, Conn.added, cost, weight, newRequest, hz, delta]

/-- A request is sent, or returned to the pending ones. -/
theorem Tally.change {c f : Conn} (h : Tally strict c g) {u : Nat} {r : Request} {a : Bool} {n : Nat} {l : List Trace}
    (hr : c.reqs.get u = some r) {r1 : Request}
    (hr1 : r1.kind = r.kind ∧ r1.id = r.id ∧ r1.size = r.size ∧ r1.unacked = r.unacked ∧ r1.incomplete = r.incomplete)
    (ha : (a = true ∧ r1.initiated = true ∧ (∃ d, l = [.sent u n d]) ∧ ∀ v ∈ f.ongoing, v = u ∨ v ∈ c.ongoing) ∨
      (a = false ∧ r1.initiated = r.initiated ∧ l = [] ∧ (∀ v ∈ f.ongoing, v ∈ c.ongoing) ∧ u ∉ c.ongoing ∧
        (strict → r.initiated = false)))
    (e1 : f.reqs = c.reqs.set u { r1 with incomplete := true, unacked := a }) (e2 : f.log = c.log ++ l)
    (e3 : ∀ i, f.counter i = (c.change u true a).counter i) :
    Tally strict f (g.set u { r1 with incomplete := true, unacked := a }) := by
  have hg := h.holds u r hr
  obtain ⟨k1, k2, k3, k4, k5⟩ := hr1
  have hcases : ∀ {v s}, (g.set u { r1 with incomplete := true, unacked := a }).get v = some s →
      (v = u ∧ s = { r1 with incomplete := true, unacked := a }) ∨ (v ≠ u ∧ g.get v = some s) := by
    intro u r hr
    rw [AMap.get_set] at hr
    split at hr
    · next e => cases hr; exact .inl ⟨e, rfl⟩
    · next e => exact .inr ⟨e, hr⟩
  have hq : ∀ t ∈ l, quiet t = true := by
    rcases ha with ⟨_, _, ⟨d, rfl⟩, _⟩ | ⟨_, _, rfl, _⟩
    · simp [quiet]
    · simp
  have hd : ∀ v, Dropped f.log v ↔ Dropped c.log v := by
    intro v
    rw [e2, dropped_append]
    exact ⟨fun h => h.elim (fun h => h) (fun h => (not_dropped hq h).elim), .inl⟩
  have hcost : ∀ i, cost i { r1 with incomplete := true, unacked := a } =
      cost i { r with incomplete := true, unacked := a } := by
    intro i
    cases i <;> simp [cost, weight, k3]
  refine ⟨AMap.nodup_set h.keys _ _, ?_, ?_, ?_, ?_, ?_, ?_, ?_, ?_, ?_, ?_, ?_⟩
  · intro v s hv
    rw [e1, AMap.get_set] at hv
    rw [AMap.get_set]
    split
    · next e => rw [if_pos e] at hv; exact hv
    · next e => rw [if_neg e] at hv; exact h.holds v s hv
  · intro v s hv
    rw [hd, e2, completions_append, completions_quiet hq]
    rcases hcases hv with ⟨rfl, _⟩ | ⟨_, hv⟩
    · exact h.only _ _ hg
    · exact h.only v s hv
  · intro v s hv
    rw [e2]
    refine List.mem_append_left _ ?_
    rcases hcases hv with ⟨rfl, rfl⟩ | ⟨_, hv⟩
    · have := h.told _ _ hg
      simp only [k1, k2, k3]
      exact this
    · exact h.told v s hv
  · intro v hv
    obtain ⟨s, hv⟩ := h.drop v ((hd v).1 hv)
    rw [AMap.get_set]
    split
    · exact ⟨_, rfl⟩
    · exact ⟨s, hv⟩
  · intro v s hv
    rcases hcases hv with ⟨rfl, rfl⟩ | ⟨_, hv⟩
    · simp only [k1, k3]
      exact h.size _ _ hg
    · exact h.size v s hv
  · intro v s hv
    rcases hcases hv with ⟨rfl, rfl⟩ | ⟨_, hv⟩
    · exact fun _ => rfl
    · exact h.inc v s hv
  · intro v s hv
    rw [e2]
    rcases ha with ⟨_, hi, ⟨d, rfl⟩, _⟩ | ⟨_, hi, rfl, _⟩
    · rcases hcases hv with ⟨rfl, rfl⟩ | ⟨hn, hv⟩
      · exact ⟨fun _ => ⟨n, sentOn_append.2 (.inr ⟨d, List.mem_singleton.2 rfl⟩)⟩, fun _ => hi⟩
      · rw [h.begun v s hv]
        constructor
        · rintro ⟨m, hm⟩
          exact ⟨m, sentOn_append.2 (.inl hm)⟩
        · rintro ⟨m, hm⟩
          rcases sentOn_append.1 hm with hm | hm
          · exact ⟨m, hm⟩
          · exact absurd ((sentOn_cons (by simp)).1 hm).1 hn
    · rw [List.append_nil]
      rcases hcases hv with ⟨rfl, rfl⟩ | ⟨hn, hv⟩
      · simp only [hi]
        exact h.begun _ _ hg
      · exact h.begun v s hv
  · intro v s hv
    rcases hcases hv with ⟨rfl, rfl⟩ | ⟨_, hv⟩
    · rcases ha with ⟨_, hi, _⟩ | ⟨ha, _⟩
      · exact fun _ => hi
      · intro e
        rw [ha] at e; cases e
    · exact h.sent v s hv
  · intro v hv s hs'
    rcases hcases hs' with ⟨rfl, rfl⟩ | ⟨hn, hs'⟩
    · rcases ha with ⟨ha, _⟩ | ⟨_, _, _, ho, hno, _⟩
      · exact ha
      · exact absurd (ho _ hv) hno
    · rcases ha with ⟨_, _, _, ho⟩ | ⟨_, _, _, ho, _⟩
      · exact h.wait v ((ho v hv).resolve_left hn) s hs'
      · exact h.wait v (ho v hv) s hs'
  · intro hst v s hv
    rcases hcases hv with ⟨rfl, rfl⟩ | ⟨_, hv⟩
    · rcases ha with ⟨ha, _⟩ | ⟨_, hi, _, _, _, hx⟩
      · exact fun _ => ha
      · intro e
        simp only [hi, hx hst] at e; cases e
    · exact h.exact' hst v s hv
  · intro i
    rw [e3, change_counter hr, total_set h.keys _ hg, h.count, hcost]

theorem Still.same {c f : Conn} (h1 : f.reqs = c.reqs) (h2 : ∀ i, f.counter i = c.counter i) (h3 : f.log = c.log)
    (h5 : f.ongoing = c.ongoing) : Still c f :=
  Still.of h1 h2 [] (by simp [h3]) (by simp) (fun _ h => h5 ▸ h)

theorem connack_still {c : Conn} {chan : Nat} {acc : Bool} : Still c (c.connack chan acc) := by
  unfold Conn.connack
  split
  · exact Still.tell c rfl
  · split
    · simp only
      split
      · exact Still.of rfl (fun i => by cases i <;> rfl) [_, _]
          (by simp only [Conn.tell, List.append_assoc]; rfl) (by simp [aside, quiet, isSend]) (fun _ h => h)
      · exact Still.of rfl (fun i => by cases i <;> rfl) [_, _]
          (by simp only [List.append_assoc]; rfl) (by simp [aside, quiet, isSend]) (fun _ h => h)
    · exact Still.of rfl (fun i => by cases i <;> rfl) [_, _] rfl (by simp [aside, quiet, isSend]) (fun _ h => h)

/-- `Tally` for some collection of requests. -/
def Counted (strict : Prop) (c : Conn) : Prop := ∃ g, Tally strict c g

theorem Counted.still {c f : Conn} (h : Counted strict c) (s : Still c f) : Counted strict f :=
  let ⟨g, h⟩ := h
  ⟨g, h.still s⟩

theorem Held.uncompleted {c : Conn} (h : Held c) {u : Nat} (hu : u ∈ c.live) : completions c.log u = 0 := by
  obtain ⟨⟨done, _, hs⟩, _⟩ := h
  rw [hs.once, if_neg fun h => h.2 hu]

theorem Counted.finish {c c' : Conn} (h : Counted strict c) (hh : Held c) (hb : c.busy = .idle) {id : Nat} {o : Outcome}
    (ho : o ≠ .cleanSession) (hs : c.finish id o = .ok c') : Counted strict c' := by
  rcases finish_cases hs with ⟨_, e⟩ | ⟨u, ht, ⟨hm, e⟩ | ⟨_, _, e⟩⟩
  · cases e; exact h
  · cases e
    obtain ⟨g, h⟩ := h
    obtain ⟨r, hr, _⟩ := hh.place hb ht
    have hl : u ∈ c.live := by
      simp only [Conn.live, List.mem_append]
      rcases hm with h | h
      · exact .inl (.inl (.inr h))
      · exact .inl (.inl (.inl h))
    refine ⟨g.del u, h.complete (l := []) hr (hh.uncompleted hl) ho ?_ complete_log (by simp) (by simp [SentOn])
      (fun i => by cases i <;> rfl) ?_⟩
    · exact (by rw [complete_eq hr] : (c.complete u o).reqs = c.reqs.del u)
    · intro v hv
      have := (List.mem_filter.1 hv).1
      rwa [complete_eq hr] at this
  · cases e

theorem Counted.suback {c c' : Conn} (h : Counted strict c) (hh : Held c) (hb : c.busy = .idle) {chan id codes : Nat}
    (hs : c.suback chan id codes = .ok c') : Counted strict c' := by
  unfold Conn.suback at hs
  split at hs
  · cases hs; exact h
  · split at hs
    · cases hs
    · split at hs
      · cases hs
      · split at hs
        · cases hs
          exact h.still (Still.of rfl (fun i => by cases i <;> rfl) [_] rfl (by simp [aside, quiet, isSend]) (fun _ h => h))
        · exact h.finish hh hb (by simp) hs

theorem Counted.receive {c c' : Conn} (h : Counted strict c) (hh : Held c) (hb : c.busy = .idle) {chan : Nat}
    {p : Packet} (hs : c.receive chan p = .ok c') : Counted strict c' := by
  have hrej : Counted strict (c.reject chan) :=
    h.still (Still.of rfl (fun i => by cases i <;> rfl) [_] rfl (by simp [aside, quiet, isSend]) (fun _ h => h))
  have ht : ∀ {t}, aside t = true → Counted strict (c.tell t) := fun h' => h.still (Still.tell c h')
  unfold Conn.receive at hs
  split at hs
  · cases hs; exact ht rfl
  · cases hs; exact h.still connack_still
  · split at hs
    · cases hs; exact hrej
    · split at hs
      · cases hs
        split
        · exact (ht rfl).still (Still.tell _ rfl)
        · exact ht rfl
      · exact (ht rfl).finish (hh.tell rfl) hb (by simp) hs
      · exact (ht rfl).finish (hh.tell rfl) hb (by simp) hs
      · exact (ht rfl).finish (hh.tell rfl) hb (by simp) hs
      · exact (ht rfl).suback (hh.tell rfl) hb hs
      · cases hs; exact (ht rfl).still (Still.tell _ rfl)
      · cases hs; exact (ht rfl).still (Still.tell _ rfl)
      · cases hs; exact hrej

theorem Counted.create {c c' : Conn} (h : Counted strict c) (hh : Held c) (hn : Sends c) {kind : Kind} {size : Nat}
    (hk : size = 0 ↔ kind = .ping) (hs : c.create kind size = .ok c') : Counted strict c' := by
  have ht : ∀ {t}, aside t = true → Counted strict (c.tell t) := fun h' => h.still (Still.tell c h')
  rcases create_cases hs with ⟨e, _⟩ | ⟨e, _⟩ | ⟨r, hsr, ⟨_, e⟩ | ⟨h2, _, _, ⟨_, e⟩ | ⟨hc, chan, hsl, hch, e⟩ | ⟨_, _, e⟩⟩⟩
  · cases e; exact ht rfl
  · cases e; exact ht rfl
  · cases e
    exact h.still (Still.of rfl (fun i => by cases i <;> rfl) [_] rfl (by simp [aside, quiet, isSend]) (fun _ h => h))
  · cases e
    obtain ⟨g, h⟩ := h
    exact ⟨_, h.create hh hk hn.below rfl rfl (fun i => by cases i <;> rfl) rfl⟩
  · cases e
    obtain ⟨g, h⟩ := h
    exact ⟨_, h.create hh hk hn.below rfl rfl (fun i => by cases i <;> rfl) rfl⟩
  · cases e

theorem schedule_still {c c' : Conn} (h : c.schedule = .ok c') : Still c c' := by
  unfold Conn.schedule at h
  split at h
  · cases h
  · cases h; exact Still.same rfl (fun i => by cases i <;> rfl) rfl rfl

theorem release_still {c c' : Conn} (h : c.release = .ok c') : c'.destroyed = true ∨ Still c c' := by
  rcases release_cases h with ⟨rfl, _⟩ | ⟨rfl, _⟩
  · exact .inr (Still.same rfl (fun i => rfl) rfl rfl)
  · exact .inl rfl

theorem Still.released {a b c : Conn} (h2 : c.destroyed = true ∨ Still b c) (h1 : Still a b) :
    c.destroyed = true ∨ Still a c := h2.imp_right h1.trans

theorem finishDisconnect_still {c c' : Conn} {prev : State} (h : c.finishDisconnect prev = .ok c') :
    c'.destroyed = true ∨ Still c c' := by
  unfold Conn.finishDisconnect at h
  refine Still.released (release_still h) (Still.of rfl (fun i => by cases i <;> rfl) _ rfl ?_ (fun _ h => h))
  intro t ht
  split at ht <;> simp at ht <;> subst ht <;> rfl

theorem Counted.released {a c : Conn} (h : Counted strict a) (h2 : c.destroyed = true ∨ Still a c) :
    c.destroyed = true ∨ Counted strict c := h2.imp_right h.still

theorem Counted.advance {c c' : Conn} (h : Counted strict c) (hh : Held c) (hs : c.advance = .ok c') :
    c'.destroyed = true ∨ Counted strict c' := by
  unfold Conn.advance at hs
  split at hs
  · next all uid todo next hb =>
    cases hs
    right
    obtain ⟨g, h⟩ := h
    have hl : uid ∈ c.live := by simp [Conn.live, hb, Busy.todo]
    have hd : ∀ v, Dropped (c.log ++ [.completed uid .cleanSession]) v ↔ Dropped c.log v ∨ v = uid := by
      intro v
      rw [dropped_append]
      simp [Dropped]
    refine ⟨g, h.keys, h.holds, ?_, ?_, ?_, h.size, h.inc, ?_, h.sent, h.wait, h.exact',
      fun i => (by cases i <;> rfl : _ = c.counter i).trans (h.count i)⟩
    · intro v s hv
      rw [hd, completions_append, completions_one]
      by_cases e : uid = v
      · exact .inr (.inr e.symm)
      · rw [if_neg e]
        rcases h.only v s hv with h | h
        · exact .inl h
        · exact .inr (.inl h)
    · exact fun v s hv => List.mem_append_left _ (h.told v s hv)
    · intro v hv
      rcases (hd v).1 hv with hv | rfl
      · exact h.drop v hv
      · obtain ⟨⟨done, _, hst⟩, _⟩ := hh
        obtain ⟨r, hr⟩ := hst.live_isSome hl
        exact ⟨r, h.holds _ _ hr⟩
    · intro v s hv
      rw [h.begun v s hv]
      simp only [sentOn_calm (l := [.completed uid .cleanSession]) (by simp [isSend])]
  · next all next hb =>
    have hsub := fun u r => removeAll_sub all c (u := u) (r := r)
    obtain ⟨rq, tb, tm, e, htm⟩ := removeAll_eq all c
    rw [e] at hsub
    simp only at hs hsub
    rw [e] at hs
    have key : ∀ f : Conn, f.reqs = rq → (∀ i, f.counter i = c.counter i) → (∃ l, f.log = c.log ++ l ∧ ∀ t ∈ l, aside t = true) →
        f.ongoing = c.ongoing → Still c f := by
      intro f h1 h2 h3 h4
      exact ⟨fun u r h => hsub u r (h1 ▸ h), h2, h3, fun u h => h4 ▸ h⟩
    split at hs
    · cases hs
      exact .inr (h.still (key _ rfl (fun i => by cases i <;> rfl) ⟨[], by simp, by simp⟩ rfl))
    · exact .inr (h.still (Still.after (schedule_still hs) (key _ rfl (fun i => by cases i <;> rfl) ⟨[], by simp, by simp⟩ rfl)))
    · cases hs
      exact .inr (h.still (key _ rfl (fun i => by cases i <;> rfl) ⟨[_], rfl, by simp [aside, quiet, isSend]⟩ rfl))
    · cases hs
      exact .inr (h.still (key _ rfl (fun i => by cases i <;> rfl) ⟨[], by simp, by simp⟩ rfl))
    · exact h.released (Still.released (finishDisconnect_still hs)
        (key _ rfl (fun i => by cases i <;> rfl) ⟨[], by simp, by simp⟩ rfl))
  · split at hs
    · exact h.released (finishDisconnect_still hs)
    · exact .inr (h.still (Still.after (schedule_still hs) (Still.same rfl (fun i => by cases i <;> rfl) rfl rfl)))
  · cases hs; exact .inr h

/-- An outgoing task is run. -/
theorem Counted.run {c : Conn} (h : Counted strict c) (hh : Held c) {k u chan : Nat} {result : Sending}
    (hk : c.tasks[k]? = some (u, chan)) (hm : ∀ r, c.reqs.get u = some r → r.kind.mayReturn result = true) :
    Counted strict (({ c with tasks := c.tasks.eraseIdx k } : Conn).send u chan result) := by
  have hp := live_task hk
  have hl : u ∈ c.live := hp.mem_iff.2 (List.mem_cons_self ..)
  have h0 := hh.uncompleted hl
  obtain ⟨⟨done, _, hs⟩, _⟩ := hh
  obtain ⟨r, hr⟩ := hs.live_isSome hl
  obtain ⟨g, h⟩ := h
  have hmay := hm r hr
  have hr' : ({ c with tasks := c.tasks.eraseIdx k } : Conn).reqs.get u = some r := hr
  have hcomp : ∀ (l : List Trace) (o : Outcome), o ≠ .cleanSession → (∀ t ∈ l, quiet t = true) →
      (∀ v n, SentOn l v n → v = u) →
      Counted strict (({ c with tasks := c.tasks.eraseIdx k, log := c.log ++ l } : Conn).complete u o) := by
    intro l o ho hq hsl
    refine ⟨g.del u, h.complete (l := l) hr h0 ho ?_ ?_ hq hsl ?_ ?_⟩
    · rw [complete_eq (c := { c with tasks := c.tasks.eraseIdx k, log := c.log ++ l }) (r := r) hr]
    · rw [complete_log]; simp
    · intro i
      rw [complete_counter (c := { c with tasks := c.tasks.eraseIdx k, log := c.log ++ l }) (r := r) hr,
        complete_counter hr]
      cases i <;> rfl
    · rw [complete_eq (c := { c with tasks := c.tasks.eraseIdx k, log := c.log ++ l }) (r := r) hr]
      exact fun _ h => h
  unfold Conn.send
  rw [hr']
  simp only
  split
  · have := hcomp [] .failed (by simp) (by simp) (by simp [SentOn])
    simpa using this
  · split
    · have := hcomp [] .success (by simp) (by simp) (by simp [SentOn])
      simpa using this
    · exact hcomp [.sent u chan r.initiated] .success (by simp) (by simp [quiet])
        (fun v n h => ((sentOn_cons (by simp)).1 h).1)
  · next timer topics =>
    have hz : r.size ≠ 0 := by
      intro hz
      rw [(h.size u r (h.holds u r hr)).1 hz] at hmay
      simp [Kind.mayReturn] at hmay
    have he : ∀ tp, (({ c with
        tasks := c.tasks.eraseIdx k
        log := c.log ++ [.sent u chan r.initiated]
        reqs := c.reqs.set u { r with initiated := true, topics := tp } } : Conn).change u true true) = { c with
        tasks := c.tasks.eraseIdx k
        log := c.log ++ [.sent u chan r.initiated]
        incompleteCount := c.incompleteCount + weight r r.incomplete true
        incompleteSize := c.incompleteSize + weight r r.incomplete true * r.size
        unackedCount := c.unackedCount + weight r r.unacked true
        unackedSize := c.unackedSize + weight r r.unacked true * r.size
        reqs := c.reqs.set u { r with initiated := true, topics := tp, incomplete := true, unacked := true } } := by
      intro tp
      rw [change_eq (AMap.get_set_same ..)]
      simp [hz, AMap.set_set, weight]
    simp only [Conn.tell]
    rw [he]
    refine ⟨_, h.change (f := { c with
        tasks := c.tasks.eraseIdx k
        log := c.log ++ [.sent u chan r.initiated]
        incompleteCount := c.incompleteCount + weight r r.incomplete true
        incompleteSize := c.incompleteSize + weight r r.incomplete true * r.size
        unackedCount := c.unackedCount + weight r r.unacked true
        unackedSize := c.unackedSize + weight r r.unacked true * r.size
        reqs := c.reqs.set u { r with
          initiated := true, topics := if r.kind.isSubscribe then topics else r.topics, incomplete := true, unacked := true }
        ongoing := c.ongoing ++ [u]
        timers := if timer then c.timers ++ [u] else c.timers })
      (a := true) (n := chan) (l := [.sent u chan r.initiated])
      (r1 := { r with initiated := true, topics := if r.kind.isSubscribe then topics else r.topics }) hr
      ⟨rfl, rfl, rfl, rfl, rfl⟩ (.inl ⟨rfl, rfl, ⟨_, rfl⟩, ?_⟩) rfl rfl ?_⟩
    · intro v hv
      rcases List.mem_append.1 hv with h | h
      · exact .inr h
      · exact .inl (List.mem_singleton.1 h)
    · intro i
      rw [change_eq hr]
      cases i <;> rfl

/-- An outgoing task is cancelled. -/
theorem Counted.cancel {c : Conn} (h : Counted strict c) (hh : Held c) {k u chan : Nat}
    (hk : c.tasks[k]? = some (u, chan)) (hx : strict → ∀ n, ¬ SentOn c.log u n) :
    Counted strict (({ c with tasks := c.tasks.eraseIdx k } : Conn).cancelled u) := by
  have hp := live_task hk
  have hl : u ∈ c.live := hp.mem_iff.2 (List.mem_cons_self ..)
  have h0 := hh.uncompleted hl
  have hnd := hh.live_nodup
  have hnl := (List.nodup_cons.1 (hp.nodup_iff.1 hnd)).1
  have hno : u ∉ c.ongoing := fun ho => hnl (by simp [Conn.live, ho])
  obtain ⟨⟨done, _, hs⟩, _⟩ := hh
  obtain ⟨r, hr⟩ := hs.live_isSome hl
  obtain ⟨g, h⟩ := h
  have hr' : ({ c with tasks := c.tasks.eraseIdx k } : Conn).reqs.get u = some r := hr
  have hg := h.holds u r hr
  unfold Conn.cancelled
  rw [hr']
  simp only
  split
  · next hret =>
    have hz : r.size ≠ 0 := by
      intro hz
      rw [(h.size u r hg).1 hz] at hret
      simp [Kind.retryable] at hret
    rw [change_eq (c := { c with tasks := c.tasks.eraseIdx k }) (r := r) hr]
    refine ⟨_, h.change (a := false) (n := 0) (l := []) (r1 := r) hr ⟨rfl, rfl, rfl, rfl, rfl⟩
      (.inr ⟨rfl, rfl, rfl, fun v hv => hv, hno, ?_⟩) (if_neg hz) (by simp) ?_⟩
    · intro hst
      cases hi : r.initiated with
      | false => rfl
      | true =>
        obtain ⟨n, hn⟩ := (h.begun u r hg).1 hi
        exact absurd hn (hx hst n)
    · intro i
      rw [change_eq hr]
      cases i <;> rfl
  · refine ⟨g.del u, h.complete (l := []) (o := .notConnected) hr h0 (by simp) ?_ complete_log (by simp) (by simp [SentOn])
      ?_ ?_⟩
    · rw [complete_eq (c := { c with tasks := c.tasks.eraseIdx k }) (r := r) hr]
    · intro i
      rw [complete_counter (c := { c with tasks := c.tasks.eraseIdx k }) (r := r) hr, complete_counter hr]
      cases i <;> rfl
    · rw [complete_eq (c := { c with tasks := c.tasks.eraseIdx k }) (r := r) hr]
      exact fun _ h => h

theorem Counted.step {c c' : Conn} {e : Event} (h : Counted strict c) (hh : Held c) (hn : Sends c)
    (he : Enabled c e = true)
    (hx : strict → ∀ k t, e = .cancel k → c.tasks[k]? = some t → ∀ n, ¬ SentOn c.log t.1 n)
    (hs : step c e = .ok c') : c'.destroyed = true ∨ Counted strict c' := by
  have same : ∀ f : Conn, f.reqs = c.reqs → (∀ i, f.counter i = c.counter i) → f.log = c.log → f.ongoing = c.ongoing →
      f.destroyed = true ∨ Counted strict f := fun f h1 h2 h3 h4 => .inr (h.still (Still.same h1 h2 h3 h4))
  cases e with
  | create kind size =>
    simp only [Enabled, decide_eq_true_eq] at he
    exact .inr (h.create hh hn ⟨fun e => absurd e he.2, fun e => absurd e he.1⟩ hs)
  | connect clean =>
    cases hs
    unfold Conn.connect
    split
    · exact .inr (h.still (Still.tell c rfl))
    · exact same _ rfl (fun i => by cases i <;> rfl) rfl rfl
  | launch ok =>
    cases hs
    right
    cases ok
    · exact h.still (Still.of rfl (fun i => by cases i <;> rfl) [_] rfl (by simp [aside, quiet, isSend]) (fun _ h => h))
    · exact h.still (Still.of rfl (fun i => by cases i <;> rfl) [_] rfl (by simp [aside, quiet, isSend]) (fun _ h => h))
  | advance => exact h.advance hh hs
  | disconnect =>
    cases hs
    unfold Conn.disconnect
    split
    · exact same _ rfl (fun i => by cases i <;> rfl) rfl rfl
    · exact .inr h
  | acquire => cases hs; exact same _ rfl (fun i => by cases i <;> rfl) rfl rfl
  | release =>
    exact h.released (Still.released (release_still hs) (Still.same rfl (fun i => by cases i <;> rfl) rfl rfl))
  | setup r =>
    cases hs
    right
    have hshut : Counted strict c.shutdown :=
      h.still (Still.of rfl (fun i => by cases i <;> rfl) [] (by simp [Conn.shutdown]) (by simp)
        (fun u hu => by simp [Conn.shutdown] at hu))
    cases r with
    | failed => exact hshut
    | refused => exact h.still (Still.same rfl (fun i => by cases i <;> rfl) rfl rfl)
    | unsent =>
      simp only [Conn.setup]
      split
      · exact h.still (Still.same rfl (fun i => by cases i <;> rfl) rfl rfl)
      · exact h.still (Still.of rfl (fun i => by cases i <;> rfl) [_] rfl (by simp [aside, quiet, isSend]) (fun _ h => h))
    | opened =>
      simp only [Conn.setup]
      split
      · exact h.still (Still.same rfl (fun i => by cases i <;> rfl) rfl rfl)
      · exact h.still (Still.of rfl (fun i => by cases i <;> rfl) [_] rfl (by simp [aside, quiet, isSend]) (fun _ h => h))
  | packet p =>
    simp only [Enabled, decide_eq_true_eq] at he
    simp only [Client311.step] at hs
    split at hs
    · cases hs
    · exact .inr (h.receive hh he.1 hs)
  | ping => exact .inr (h.create hh hn ⟨fun _ => rfl, fun _ => rfl⟩ hs)
  | run k result =>
    simp only [Client311.step] at hs
    split at hs
    · cases hs; exact .inr h
    · next uid chan hk =>
      cases hs
      refine .inr (h.run hh hk ?_)
      intro r hr
      simp only [Enabled, hk, hr, Bool.and_eq_true] at he
      exact he.2.2
  | cancel k =>
    simp only [Client311.step] at hs
    split at hs
    · cases hs; exact .inr h
    · next uid chan hk =>
      cases hs
      exact .inr (h.cancel hh hk fun hst => hx hst k _ rfl hk)
  | timeout uid =>
    simp only [Enabled, decide_eq_true_eq] at he
    simp only [Client311.step] at hs
    split at hs
    · cases hs
    · exact .inr (h.finish hh he.1 (by simp) hs)
  | attempt ok =>
    simp only [Client311.step, Conn.attempt] at hs
    split at hs
    · split at hs
      · cases hs; exact same _ rfl (fun i => by cases i <;> rfl) rfl rfl
      · exact h.released (Still.released (release_still hs)
          (Still.of rfl (fun i => by cases i <;> rfl) [_] rfl (by simp [aside, quiet, isSend]) (fun _ h => h)))
    · split at hs <;> cases hs <;> exact same _ rfl (fun i => by cases i <;> rfl) rfl rfl
  | disconnectTask => cases hs; exact same _ rfl (fun i => by cases i <;> rfl) rfl rfl
  | close => cases hs; exact same _ rfl (fun i => by cases i <;> rfl) rfl rfl
  | shutdown =>
    cases hs
    exact .inr (h.still (Still.of rfl (fun i => by cases i <;> rfl) [] (by simp [Conn.shutdown]) (by simp)
      (fun u hu => by simp [Conn.shutdown] at hu)))

theorem Reachable.counted {allowed : Conn → Event → Prop} {c : Conn} (h : Reachable allowed c)
    (hx : strict → ∀ c k t, allowed c (.cancel k) → c.tasks[k]? = some t → ∀ n, ¬ SentOn c.log t.1 n)
    (hd : c.destroyed = false) : Counted strict c := by
  have key : c.destroyed = true ∨ Counted strict c := by
    clear hd
    induction h with
    | init => exact .inr ⟨[], Tally.init⟩
    | step hr hd he ha hs ih =>
      refine (ih.resolve_left (by rw [hd]; exact Bool.false_ne_true)).step hr.inv.2 hr.sends he ?_ hs
      rintro hst k t rfl ht
      exact hx hst _ k t ha ht
  exact key.resolve_left (by rw [hd]; exact Bool.false_ne_true)

end Mqtt.Client311
