import Verif.Spec.Timeout311

/-!
Timeout tasks and requests of an MQTT 3.1.1 connection point at each other (C85).
-/
namespace Mqtt.Timeout311

structure TB (c : Conn) : Prop where
  numNd : (c.reqs.map (·.num)).Nodup
  pidNd : (c.reqs.map (·.pid)).Nodup
  tNd : (c.timers.map (·.num)).Nodup
  numLt : ∀ r ∈ c.reqs, r.num < c.nextReq
  tLt : ∀ t ∈ c.timers, t.num < c.nextTimer
  fwd : ∀ r ∈ c.reqs, ∀ n, r.timer = some n → ∃ t ∈ c.timers, t.num = n ∧ t.owner = some r.num
  back : ∀ t ∈ c.timers, ∀ n, t.owner = some n → ∃ r ∈ c.reqs, r.num = n ∧ r.timer = some t.num ∧ t.pid = r.pid ∧
    r.timeout ≠ 0 ∧ r.timeout ≠ umax ∧ ∃ t0, r.sentAt = some t0 ∧ t.due = min (t0 + r.timeout) umax
  tried : ∀ r ∈ c.reqs, r.tried = false → r.sentAt = none ∧ r.timer = none
  chan : c.chan = false → c.timers = []
  pid : ∀ r ∈ c.reqs, r.pid ≠ 0
  qos0 : ∀ r ∈ c.reqs, r.qos0 = true → r.sentAt = none

def Armed (c : Conn) : Prop := ∀ r ∈ c.reqs, r.sentAt ≠ none → r.timeout ≠ 0 → r.timeout ≠ umax → r.timer ≠ none

theorem nodup_key {α β : Type} {f : α → β} {l : List α} (h : (l.map f).Nodup) {a b : α} (ha : a ∈ l) (hb : b ∈ l) (e : f a = f b) : a = b := by
  induction l with
  | nil => cases ha
  | cons x l ih =>
    simp only [List.map_cons, List.nodup_cons, List.mem_map, not_exists, not_and] at h
    rcases List.mem_cons.1 ha with rfl | ha' <;> rcases List.mem_cons.1 hb with rfl | hb'
    · rfl
    · exact absurd e.symm (h.1 b hb')
    · exact absurd e (h.1 a ha')
    · exact ih h.2 ha' hb'

theorem find_mem {c : Conn} {pid : Nat} {r : Req} (h : c.find pid = some r) : r ∈ c.reqs ∧ r.pid = pid := by
  refine ⟨List.mem_of_find?_eq_some h, ?_⟩
  have := List.find?_some h
  simpa using this

theorem find_of {c : Conn} (h : TB c) {r : Req} (hr : r ∈ c.reqs) : c.find r.pid = some r := by
  unfold Conn.find
  cases hf : c.reqs.find? (·.pid = r.pid) with
  | none => have := List.find?_eq_none.1 hf r hr; simp at this
  | some x =>
    have h1 := List.mem_of_find?_eq_some hf
    have h2 := List.find?_some hf
    simp only [decide_eq_true_eq] at h2
    rw [nodup_key h.pidNd h1 hr h2]

theorem findTimer_of {c : Conn} (h : TB c) {t : Timer} (ht : t ∈ c.timers) : c.timers.find? (·.num = t.num) = some t := by
  cases hf : c.timers.find? (·.num = t.num) with
  | none => have := List.find?_eq_none.1 hf t ht; simp at this
  | some x =>
    have h1 := List.mem_of_find?_eq_some hf
    have h2 := List.find?_some hf
    simp only [decide_eq_true_eq] at h2
    rw [nodup_key h.tNd h1 ht h2]

theorem complete_ok {c : Conn} (h : TB c) (ha : Armed c) {r : Req} (hr : r ∈ c.reqs) (res : Result) :
    TB (c.complete r res).1 ∧ Armed (c.complete r res).1 ∧ (c.complete r res).2 = [.done r.num res c.now] := by
  obtain ⟨a1, a2, a3, a4, a5, a6, a7, a8, a9, a10, a11⟩ := h
  refine ⟨?_, ?_, ?_⟩
  · unfold Conn.complete
    constructor
    · exact (List.filter_sublist.map _).nodup a1
    · exact (List.filter_sublist.map _).nodup a2
    · simp only [List.map_map]
      have : ((fun t : Timer => t.num) ∘ fun t => if r.timer = some t.num then { t with owner := none } else t) = fun t => t.num := by
        funext t; simp only [Function.comp]; split <;> rfl
      rw [this]; exact a3
    · intro x hx; exact a4 x ((List.mem_filter.1 hx).1)
    · intro t ht
      simp only [List.mem_map] at ht
      obtain ⟨t', ht', rfl⟩ := ht
      have := a5 t' ht'
      split <;> exact this
    · intro x hx n hn
      simp only [List.mem_filter, decide_eq_true_eq] at hx
      obtain ⟨t, ht, e1, e2⟩ := a6 x hx.1 n hn
      refine ⟨t, ?_, e1, e2⟩
      simp only [List.mem_map]
      refine ⟨t, ht, ?_⟩
      rw [if_neg]
      intro hc
      obtain ⟨t', ht', e1', e2'⟩ := a6 r hr _ hc
      have := nodup_key a3 ht ht' e1'.symm
      subst this
      rw [e2] at e2'; injection e2' with e2'
      exact hx.2 e2'
    · intro t ht n hn
      simp only [List.mem_map] at ht
      obtain ⟨t', ht', rfl⟩ := ht
      split at hn
      · cases hn
      · next hne =>
        obtain ⟨x, hx, b1, b2, b3⟩ := a7 t' ht' n hn
        rw [if_neg hne]
        refine ⟨x, ?_, b1, b2, b3⟩
        simp only [List.mem_filter, decide_eq_true_eq]
        refine ⟨hx, ?_⟩
        intro e
        have := nodup_key a1 hx hr e
        subst this
        exact hne b2
    · intro x hx; exact a8 x ((List.mem_filter.1 hx).1)
    · intro hc; simp only [a9 hc, List.map_nil]
    · intro x hx; exact a10 x ((List.mem_filter.1 hx).1)
    · intro x hx; exact a11 x ((List.mem_filter.1 hx).1)
  · intro x hx
    exact ha x ((List.mem_filter.1 hx).1)
  · unfold Conn.complete
    simp only
    congr 1
    cases ht : r.timer with
    | none => rfl
    | some n =>
      obtain ⟨t, ht, e1, _⟩ := a6 r hr n ht
      simp only
      rw [if_pos]
      simp only [List.any_eq_true, decide_eq_true_eq]
      exact ⟨t, ht, e1⟩

/-- A timer that has no owner goes. -/
theorem drop_free {c : Conn} (h : TB c) {t : Timer} (ht : t ∈ c.timers) (ho : t.owner = none) :
    c.dropTimer t.num = ({ c with timers := c.timers.filter (·.num ≠ t.num) }, []) ∧
    TB { c with timers := c.timers.filter (·.num ≠ t.num) } := by
  have hf := findTimer_of h ht
  obtain ⟨a1, a2, a3, a4, a5, a6, a7, a8, a9, a10, a11⟩ := h
  refine ⟨?_, ?_⟩
  · unfold Conn.dropTimer
    rw [hf]
    simp [ho]
  · constructor
    · exact a1
    · exact a2
    · exact (List.filter_sublist.map _).nodup a3
    · exact a4
    · intro x hx; exact a5 x ((List.mem_filter.1 hx).1)
    · intro x hx n hn
      obtain ⟨t', ht', e1, e2⟩ := a6 x hx n hn
      refine ⟨t', ?_, e1, e2⟩
      simp only [List.mem_filter, decide_eq_true_eq]
      refine ⟨ht', ?_⟩
      intro e
      have := nodup_key a3 ht' ht e
      subst this
      rw [ho] at e2; cases e2
    · intro x hx n hn; exact a7 x ((List.mem_filter.1 hx).1) n hn
    · exact a8
    · intro hc; simp only [a9 hc, List.filter_nil]
    · exact a10
    · exact a11

theorem map_num {rs : List Req} {num : Nat} {f : Req → Req} (hf : ∀ r, (f r).num = r.num) :
    (rs.map fun r => if r.num = num then f r else r).map (·.num) = rs.map (·.num) := by
  rw [List.map_map]
  congr 1
  funext r
  simp only [Function.comp]
  split
  · exact hf r
  · rfl

theorem map_pid {rs : List Req} {num : Nat} {f : Req → Req} (hf : ∀ r, (f r).pid = r.pid) :
    (rs.map fun r => if r.num = num then f r else r).map (·.pid) = rs.map (·.pid) := by
  rw [List.map_map]
  congr 1
  funext r
  simp only [Function.comp]
  split
  · exact hf r
  · rfl

/-- A timer goes when it is cancelled. -/
theorem drop_ok {c : Conn} (h : TB c) {t : Timer} (ht : t ∈ c.timers) :
    TB (c.dropTimer t.num).1 ∧ (c.dropTimer t.num).2 = [] ∧ (c.dropTimer t.num).1.timers = c.timers.filter (·.num ≠ t.num) ∧
    (∃ g : Req → Req, (c.dropTimer t.num).1.reqs = c.reqs.map g ∧ ∀ r, g r = r ∨ g r = { r with timer := none }) ∧
    (∀ r' ∈ (c.dropTimer t.num).1.reqs, r'.timer = none ∨ ∃ n, r'.timer = some n ∧ n ≠ t.num) ∧
    (∃ reqs timers, (c.dropTimer t.num).1 = { c with reqs, timers }) := by
  cases ho : t.owner with
  | none =>
    obtain ⟨e1, e2⟩ := drop_free h ht ho
    rw [e1]
    refine ⟨e2, rfl, rfl, ⟨id, by simp, fun r => .inl rfl⟩, ?_, _, _, rfl⟩
    intro r hr
    cases hn : r.timer with
    | none => exact .inl rfl
    | some n =>
      refine .inr ⟨n, rfl, ?_⟩
      obtain ⟨t', ht', b1, b2⟩ := h.fwd r hr n hn
      intro e
      have := nodup_key h.tNd ht' ht (b1.trans e)
      subst this
      rw [ho] at b2; cases b2
  | some m =>
    have hf := findTimer_of h ht
    obtain ⟨r, hr, r1, r2, r3⟩ := h.back t ht m ho
    have hany : c.reqs.any (·.num = m) = true := by
      simp only [List.any_eq_true, decide_eq_true_eq]; exact ⟨r, hr, r1⟩
    have hd : c.dropTimer t.num = (Conn.setReq { c with timers := c.timers.filter (·.num ≠ t.num) } m fun r => { r with timer := none }, []) := by
      unfold Conn.dropTimer
      rw [hf]
      simp only [Option.bind_some, ho]
      rw [if_pos hany]
    rw [hd]
    have hmem : ∀ x' ∈ (c.reqs.map fun r => if r.num = m then { r with timer := none } else r),
        (∃ x ∈ c.reqs, x.num = m ∧ x' = { x with timer := none }) ∨ (x' ∈ c.reqs ∧ x'.num ≠ m) := by
      intro x' hx'
      simp only [List.mem_map] at hx'
      obtain ⟨x, hx, rfl⟩ := hx'
      by_cases hxm : x.num = m
      · exact .inl ⟨x, hx, hxm, by rw [if_pos hxm]⟩
      · exact .inr ⟨by rw [if_neg hxm]; exact hx, by rw [if_neg hxm]; exact hxm⟩
    have hown : ∀ t' ∈ c.timers, t'.owner = some m → t' = t := by
      intro t' ht' ho'
      obtain ⟨x, hx, b1, b2, _⟩ := h.back t' ht' m ho'
      have hxr := nodup_key h.numNd hx hr (b1.trans r1.symm)
      subst hxr
      rw [r2] at b2
      injection b2 with b2
      exact nodup_key h.tNd ht' ht b2.symm
    refine ⟨?_, rfl, rfl, ⟨fun r => if r.num = m then { r with timer := none } else r, rfl, ?_⟩, ?_, ?_⟩
    · obtain ⟨a1, a2, a3, a4, a5, a6, a7, a8, a9, a10, a11⟩ := h
      constructor
      · show (List.map _ (List.map _ _)).Nodup
        rw [map_num (by intro r; rfl)]; exact a1
      · show (List.map _ (List.map _ _)).Nodup
        rw [map_pid (by intro r; rfl)]; exact a2
      · exact (List.filter_sublist.map _).nodup a3
      · intro x hx
        rcases hmem x hx with ⟨y, hy, _, rfl⟩ | ⟨hy, _⟩
        · exact a4 y hy
        · exact a4 x hy
      · intro x hx; exact a5 x ((List.mem_filter.1 hx).1)
      · intro x hx n hn
        rcases hmem x hx with ⟨y, hy, _, rfl⟩ | ⟨hy, hne⟩
        · cases hn
        · obtain ⟨t', ht', b1, b2⟩ := a6 x hy n hn
          refine ⟨t', ?_, b1, b2⟩
          simp only [Conn.setReq, List.mem_filter, decide_eq_true_eq]
          refine ⟨ht', ?_⟩
          intro e
          have := nodup_key a3 ht' ht e
          subst this
          rw [ho] at b2; injection b2 with b2
          exact hne b2.symm
      · intro t' ht' n hn
        simp only [Conn.setReq, List.mem_filter, decide_eq_true_eq] at ht'
        obtain ⟨x, hx, b1, b2, b3⟩ := a7 t' ht'.1 n hn
        have hnm : n ≠ m := by
          intro e; subst e
          exact ht'.2 (by rw [hown t' ht'.1 hn])
        refine ⟨x, ?_, b1, b2, b3⟩
        simp only [Conn.setReq, List.mem_map]
        exact ⟨x, hx, if_neg (by rw [b1]; exact hnm)⟩
      · intro x hx hq
        rcases hmem x hx with ⟨y, hy, _, rfl⟩ | ⟨hy, _⟩
        · exact ⟨(a8 y hy hq).1, rfl⟩
        · exact a8 x hy hq
      · intro hc; have := a9 hc; show List.filter _ c.timers = []; rw [this]; rfl
      · intro x hx
        rcases hmem x hx with ⟨y, hy, _, rfl⟩ | ⟨hy, _⟩
        · exact a10 y hy
        · exact a10 x hy
      · intro x hx
        rcases hmem x hx with ⟨y, hy, _, rfl⟩ | ⟨hy, _⟩
        · exact a11 y hy
        · exact a11 x hy
    · intro x; simp only; split
      · exact .inr rfl
      · exact .inl rfl
    · intro x hx
      rcases hmem x hx with ⟨y, hy, _, rfl⟩ | ⟨hy, hne⟩
      · exact .inl rfl
      · cases hn : x.timer with
        | none => exact .inl rfl
        | some n =>
          refine .inr ⟨n, rfl, ?_⟩
          obtain ⟨t', ht', b1, b2⟩ := h.fwd x hy n hn
          intro e
          have := nodup_key h.tNd ht' ht (b1.trans e)
          subst this
          rw [ho] at b2; injection b2 with b2
          exact hne b2.symm
    · exact ⟨_, _, rfl⟩

theorem cancelAll_ok (ts : List Timer) : ∀ {c : Conn}, TB c → c.timers = ts →
    TB (c.cancelAll ts).1 ∧ (c.cancelAll ts).2 = [] ∧ (c.cancelAll ts).1.timers = [] ∧
    (∃ g : Req → Req, (c.cancelAll ts).1.reqs = c.reqs.map g ∧ ∀ r, g r = r ∨ g r = { r with timer := none }) ∧
    (∃ reqs timers, (c.cancelAll ts).1 = { c with reqs, timers }) := by
  induction ts with
  | nil => intro c h e; exact ⟨h, rfl, e, ⟨id, by simp [Conn.cancelAll], fun r => .inl rfl⟩, _, _, rfl⟩
  | cons t ts ih =>
    intro c h e
    have ht : t ∈ c.timers := by rw [e]; simp
    obtain ⟨d1, d2, d3, ⟨g, d4, d5⟩, _, rs, tms, d6⟩ := drop_ok h ht
    have hts : (c.dropTimer t.num).1.timers = ts := by
      rw [d3, e]
      have := h.tNd
      rw [e, List.map_cons, List.nodup_cons] at this
      rw [List.filter_cons, if_neg (by simp)]
      apply List.filter_eq_self.2
      intro x hx
      simp only [decide_eq_true_eq]
      intro hxe
      exact this.1 (List.mem_map.2 ⟨x, hx, hxe⟩)
    obtain ⟨i1, i2, i3, ⟨g', i4, i5⟩, rs', tms', i6⟩ := ih d1 hts
    simp only [Conn.cancelAll]
    refine ⟨i1, by rw [d2, i2]; rfl, i3, ⟨g' ∘ g, by rw [i4, d4, List.map_map], ?_⟩, rs', tms', by rw [i6, d6]⟩
    intro r
    simp only [Function.comp]
    rcases d5 r with e1 | e1 <;> rw [e1]
    · exact i5 r
    · rcases i5 { r with timer := none } with e2 | e2 <;> rw [e2] <;> exact .inr rfl

/-- A timeout task is run. -/
theorem expire_ok {c : Conn} (h : TB c) (ha : Armed c) {t : Timer} (ht : t ∈ c.timers) :
    TB (c.expire t).1 ∧ Armed (c.expire t).1 ∧
    ((t.owner = none ∧ (c.expire t).2 = [] ∧ (c.expire t).1.reqs = c.reqs) ∨
     ∃ r ∈ c.reqs, t.owner = some r.num ∧ r.timer = some t.num ∧ (c.expire t).2 = [.done r.num .timeout c.now] ∧
       (c.expire t).1.reqs = c.reqs.filter (·.num ≠ r.num)) ∧
    ∃ reqs timers, (c.expire t).1 = { c with reqs, timers } := by
  cases ho : t.owner with
  | none =>
    obtain ⟨e1, e2⟩ := drop_free h ht ho
    have he : c.expire t = ({ c with timers := c.timers.filter (·.num ≠ t.num) }, []) := by
      unfold Conn.expire
      simp only [ho, ne_eq, not_true_eq_false, if_false, e1, List.nil_append]
    rw [he]
    exact ⟨e2, ha, .inl ⟨rfl, rfl, rfl⟩, _, _, rfl⟩
  | some m =>
    obtain ⟨r, hr, r1, r2, r3, _⟩ := h.back t ht m ho
    obtain ⟨c1, c2, c3⟩ := complete_ok h ha hr .timeout
    have ht' : { t with owner := none } ∈ (c.complete r .timeout).1.timers := by
      simp only [Conn.complete, List.mem_map]
      exact ⟨t, ht, by rw [if_pos r2]⟩
    obtain ⟨e1, e2⟩ := drop_free c1 ht' rfl
    have hrc : c.requestComplete t.pid .timeout = c.complete r .timeout := by
      unfold Conn.requestComplete
      rw [r3, find_of h hr]
    have he : c.expire t = ({ (c.complete r .timeout).1 with timers := (c.complete r .timeout).1.timers.filter (·.num ≠ t.num) },
        [.done r.num .timeout c.now]) := by
      unfold Conn.expire
      simp only [ho, ne_eq, reduceCtorEq, not_false_eq_true, if_true, hrc, c3]
      simp only at e1
      rw [e1]
      rfl
    rw [he]
    refine ⟨e2, c2, .inr ⟨r, hr, by rw [r1], r2, rfl, rfl⟩, _, _, rfl⟩

end Mqtt.Timeout311
