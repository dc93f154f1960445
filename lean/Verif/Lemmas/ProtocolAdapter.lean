import Verif.Spec.ProtocolAdapter

/-! The protocol adapter. -/
namespace Mqtt.Rrpa

theorem report_granted (x : Answer) : x.report.1 = .success ↔ x.granted := by
  cases x with
  | subscribe311 qos error =>
    simp only [Answer.report, Answer.granted]
    split
    · next h => simp [h.1]; exact h.2
    · next h =>
      constructor
      · intro e; exact ⟨e, by have : ¬ qos ≥ 128 := fun hq => h ⟨e, hq⟩; omega⟩
      · exact fun e => e.1
  | unsubscribe311 error => exact Iff.rfl
  | publish311 error => exact Iff.rfl
  | subscribe5 ack error =>
    simp only [Answer.report, Answer.granted, judge]
    split
    · next h =>
      split
      · next reason =>
        split
        · next hr => simp; intro _; exact hr
        · next hr => simp [h]; omega
      · next hn => simp [h]; intro r e; exact absurd e (hn r)
    · next h => exact ⟨fun e => absurd e h, fun e => absurd e.1 h⟩
  | unsubscribe5 ack error =>
    simp only [Answer.report, Answer.granted, judge]
    split
    · next h =>
      split
      · next reason =>
        split
        · next hr => simp; intro _; exact hr
        · next hr => simp [h]; omega
      · next hn => simp [h]; intro r e; exact absurd e (hn r)
    · next h => exact ⟨fun e => absurd e h, fun e => absurd e.1 h⟩
  | publish5 ack error =>
    simp only [Answer.report, Answer.granted]
    cases ack with
    | none => simp
    | some reason =>
      simp only
      split
      · next h => simp [h.1]; exact h.2
      · next h =>
        constructor
        · intro e; refine ⟨e, ?_⟩; intro r hr; cases hr
          have : ¬ reason ≥ 128 := fun hq => h ⟨e, hq⟩
          omega
        · exact fun e => e.1

/-- The client's own error is passed on. -/
theorem report_error (x : Answer) (h : x.error ≠ .success) : x.report.1 = x.error := by
  cases x with
  | subscribe311 qos error => simp only [Answer.error] at h; simp [Answer.report, Answer.error, h]
  | unsubscribe311 error => rfl
  | publish311 error => rfl
  | subscribe5 ack error => simp only [Answer.error] at h; simp [Answer.report, Answer.error, judge, h]
  | unsubscribe5 ack error => simp only [Answer.error] at h; simp [Answer.report, Answer.error, judge, h]
  | publish5 ack error => simp only [Answer.error] at h; cases ack <;> simp [Answer.report, Answer.error, h]

theorem report_transient (x : Answer) : x.report.2 = true ↔ x.transient := by
  cases x with
  | subscribe311 qos error => simp [Answer.report, Answer.transient]
  | unsubscribe311 error => simp [Answer.report, Answer.transient, retryableUnsubscribe311]
  | publish311 error => simp [Answer.report, Answer.transient]
  | publish5 ack error => simp [Answer.report, Answer.transient]
  | subscribe5 ack error =>
    simp only [Answer.report, Answer.transient, retryableSubscribe]
    split
    · next h => rcases h with h | h <;> simp [h]
    · next h =>
      split
      · next h2 => simp only [true_iff]; exact .inl ⟨h2, fun e => h (.inl e), fun e => h (.inr e)⟩
      · next h2 =>
        have h2 : error = .success := by simpa using h2
        simp only [h2, ne_eq, not_true_eq_false, false_and, false_or, true_and, reasonIn]
        cases ack with
        | none => simp [firstReason]
        | some l =>
          cases l with
          | nil => simp [firstReason]
          | cons r l =>
            simp only [firstReason, reduceCtorEq, Option.some.injEq, List.cons.injEq, false_or]
            constructor
            · intro hm; refine ⟨r, l, ⟨rfl, rfl⟩, ?_⟩
              split at hm <;> first | simp_all | cases hm
            · rintro ⟨_, _, ⟨rfl, rfl⟩, hm⟩
              simp only [List.mem_cons, List.not_mem_nil, or_false] at hm
              rcases hm with e | e | e | e | e | e | e <;> subst e <;> rfl
  | unsubscribe5 ack error =>
    simp only [Answer.report, Answer.transient, retryableUnsubscribe5]
    split
    · next h => rcases h with h | h <;> simp [h]
    · next h =>
      have h' : error ≠ .packetValidation ∧ error ≠ .unsubscribeOptions := ⟨fun e => h (.inl e), fun e => h (.inr e)⟩
      split
      · next h2 => simp [h2]
      · next h2 =>
        simp only [h2, ne_eq, h'.1, h'.2, not_false_eq_true, true_and, false_or, reasonIn]
        cases ack with
        | none => simp [firstReason]
        | some l =>
          cases l with
          | nil => simp [firstReason]
          | cons r l =>
            simp only [firstReason, Option.some.injEq, List.cons.injEq]
            constructor
            · intro hm; refine ⟨r, l, ⟨rfl, rfl⟩, ?_⟩
              split at hm <;> first | simp_all | cases hm
            · rintro ⟨_, _, ⟨rfl, rfl⟩, hm⟩
              simp only [List.mem_cons, List.not_mem_nil, or_false] at hm
              rcases hm with e | e <;> subst e <;> rfl

theorem early_before {log l : List Trace} (h : .terminated ∉ log) : early (log ++ l) = log ++ early l := by
  unfold early
  induction log with
  | nil => rfl
  | cons t log ih =>
    rw [List.cons_append, List.takeWhile_cons, if_pos (by
      simp only [decide_eq_true_eq]; intro e; exact h (by simp [e])), ih (fun hm => h (by simp [hm])), List.cons_append]

theorem early_self {log : List Trace} (h : .terminated ∉ log) : early log = log := by
  have := early_before (l := []) h
  simpa [early] using this

theorem early_after {log l : List Trace} (h : .terminated ∈ log) : early (log ++ l) = early log := by
  unfold early
  induction log with
  | nil => cases h
  | cons t log ih =>
    rw [List.cons_append, List.takeWhile_cons, List.takeWhile_cons]
    split
    · next ht =>
      rw [ih]
      rcases List.mem_cons.1 h with e | e
      · rw [← e] at ht; simp at ht
      · exact e
    · rfl

theorem reports_append (a b : List Trace) (uid : Nat) : reports (a ++ b) uid = reports a uid + reports b uid :=
  List.countP_append

theorem answers_append (a b : List Trace) (uid : Nat) : answers (a ++ b) uid = answers a uid + answers b uid :=
  List.countP_append

/-! ### The end -/

/-- What the loop over the incomplete operations tells. -/
def orphanLog (ops : AMap Nat Op) (l : List Nat) : List Trace :=
  l.flatMap fun uid => match ops.get uid with
    | some op => if op.kind = .publish then [.published uid .shutDown] else []
    | none => []

theorem orphanLog_congr {m m' : AMap Nat Op} (h : ∀ u, (m'.get u).map (·.kind) = (m.get u).map (·.kind)) (l : List Nat) :
    orphanLog m' l = orphanLog m l := by
  unfold orphanLog
  congr 1
  funext u
  have := h u
  cases h1 : m.get u <;> cases h2 : m'.get u <;> rw [h1, h2] at this <;> simp at this <;> simp [this]

theorem orphan_eq (l : List Nat) (a : Adapter) : ∃ m, a.orphan l = { a with ops := m, log := a.log ++ orphanLog a.ops l } ∧
    ∀ u, m.get u = if u ∈ l then (a.ops.get u).map fun op => { op with adapter := false } else a.ops.get u := by
  induction l generalizing a with
  | nil => exact ⟨a.ops, by simp [Adapter.orphan, orphanLog], by simp⟩
  | cons uid l ih =>
    simp only [Adapter.orphan]
    cases ho : a.ops.get uid with
    | none =>
      obtain ⟨m, e, hm⟩ := ih a
      refine ⟨m, by simp only; rw [e]; simp [orphanLog, ho], ?_⟩
      intro u
      rw [hm u]
      by_cases hu : u = uid
      · subst hu; simp [ho]
      · simp [hu]
    | some op =>
      simp only
      generalize hb : ({ a with ops := a.ops.set uid { op with adapter := false }, log := _ } : Adapter) = b
      obtain ⟨m, e, hm⟩ := ih b
      refine ⟨m, ?_, ?_⟩
      · rw [e, ← hb]
        simp only [Adapter.mk.injEq, true_and, List.append_assoc, List.append_cancel_left_eq]
        rw [orphanLog_congr (m := a.ops)]
        · simp [orphanLog, ho]
        · intro u
          rw [AMap.get_set]
          split
          · next hu => rw [hu, ho]; rfl
          · rfl
      · intro u
        rw [hm u, ← hb]
        simp only [AMap.get_set, List.mem_cons]
        by_cases hu : u = uid
        · subst hu; simp [ho]
        · simp [hu]

theorem orphanLog_shape {ops : AMap Nat Op} {l : List Nat} {t : Trace} (h : t ∈ orphanLog ops l) :
    ∃ uid op, t = .published uid .shutDown ∧ uid ∈ l ∧ ops.get uid = some op ∧ op.kind = .publish := by
  unfold orphanLog at h
  obtain ⟨uid, hu, h⟩ := List.mem_flatMap.1 h
  cases ho : ops.get uid with
  | none => rw [ho] at h; cases h
  | some op =>
    rw [ho] at h
    simp only at h
    split at h
    · next hk => exact ⟨uid, op, by simpa using h, hu, ho, hk⟩
    · cases h

theorem orphanLog_reports {ops : AMap Nat Op} {l : List Nat} (hl : l.Nodup) (uid : Nat) :
    reports (orphanLog ops l) uid =
      if uid ∈ l ∧ ∃ op, ops.get uid = some op ∧ op.kind = .publish then 1 else 0 := by
  induction l with
  | nil => simp [orphanLog, reports]
  | cons u l ih =>
    have e : orphanLog ops (u :: l) = orphanLog ops [u] ++ orphanLog ops l := by simp [orphanLog]
    rw [e, reports_append, ih (List.nodup_cons.1 hl).2]
    have hu := (List.nodup_cons.1 hl).1
    by_cases h : uid = u
    · subst h
      rw [if_neg (c := uid ∈ l ∧ _) (fun e => hu e.1)]
      unfold orphanLog reports
      cases ho : ops.get uid with
      | none => simp [ho]
      | some op =>
        by_cases hk : op.kind = .publish
        · simp [ho, hk, isReport]
        · simp [ho, hk]
    · have : reports (orphanLog ops [u]) uid = 0 := by
        unfold reports
        rw [List.countP_eq_zero]
        intro t ht
        obtain ⟨u', _, e, hm, _⟩ := orphanLog_shape ht
        rw [e]
        simp only [List.mem_singleton] at hm
        simp only [isReport, beq_iff_eq]
        intro e; exact h (e.symm.trans hm)
      rw [this, Nat.zero_add]
      simp [h]

/-! ### The invariant -/

/-- Where the listener is. -/
inductive Phase (a : Adapter) : Prop where
  | fresh : a.tasks = [.begin] → a.refs = 2 → a.dying = false → a.alive = true → a.attached = false → Phase a
  | hasty : a.tasks = [.begin] → a.refs = 1 → a.dying = true → a.alive = true → a.attached = false → Phase a
  | on : a.tasks = [] → a.refs = 1 → a.dying = false → a.alive = true → a.attached = true → Phase a
  | going : a.tasks = [.finish] → a.refs = 0 → a.dying = true → a.alive = true → a.attached = true → Phase a
  | gone : a.tasks = [] → a.refs = 0 → a.dying = true → a.alive = false → a.attached = false → Phase a

structure Inv (a : Adapter) : Prop where
  phase : Phase a
  ended : .terminated ∈ a.log ↔ a.alive = false
  given : ∀ uid, uid ∈ a.given ↔ (a.ops.get uid).isSome
  kinds : ∀ uid op, a.ops.get uid = some op → .submitted uid op.kind ∈ a.log
  same : ∀ uid k k', .submitted uid k ∈ a.log → .submitted uid k' ∈ a.log → k = k'
  bound : ∀ uid k, .submitted uid k ∈ a.log → uid < a.nextUid
  live : a.alive = true → ∀ uid, uid ∈ a.incomplete ↔ (a.ops.get uid).isSome
  pointer : ∀ uid op, a.ops.get uid = some op → op.adapter = a.alive
  dead : a.alive = false → a.incomplete = []
  nodup : a.incomplete.Nodup
  asked : ∀ uid, (∀ k, .submitted uid k ∉ a.log) → answers a.log uid = 0 ∧ reports a.log uid = 0
  answered : ∀ uid k, .submitted uid k ∈ a.log → answers a.log uid = if uid ∈ a.given then 0 else 1
  reported : ∀ uid k, .submitted uid k ∈ a.log →
    reports a.log uid = if k = .publish ∧ a.alive = false then 1 else answers (early a.log) uid

theorem Inv.new : Inv {} where
  phase := .fresh rfl rfl rfl rfl rfl
  ended := by simp
  given := by simp
  kinds := by simp
  same := by simp
  bound := by simp
  live := by simp
  pointer := by simp
  dead := by simp
  nodup := by simp
  asked := by simp [answers, reports]
  answered := by simp
  reported := by simp

/-- Traces that say nothing of operations. -/
def isIdle : Trace → Bool
  | .refused _ => true
  | .incoming .. => true
  | .connection .. => true
  | .destroying => true
  | _ => false

theorem idle_reports {l : List Trace} (h : ∀ t ∈ l, isIdle t = true) (uid : Nat) : reports l uid = 0 := by
  unfold reports
  rw [List.countP_eq_zero]
  intro t ht
  have := h t ht
  cases t <;> first | (simp [isReport]; done) | cases this

theorem idle_answers {l : List Trace} (h : ∀ t ∈ l, isIdle t = true) (uid : Nat) : answers l uid = 0 := by
  unfold answers
  rw [List.countP_eq_zero]
  intro t ht
  have := h t ht
  cases t <;> first | (simp [isAnswer]; done) | cases this

theorem idle_submitted {l : List Trace} (h : ∀ t ∈ l, isIdle t = true) (uid : Nat) (k : Kind) : .submitted uid k ∉ l := by
  intro hm; have := h _ hm; cases this

theorem idle_terminated {l : List Trace} (h : ∀ t ∈ l, isIdle t = true) : .terminated ∉ l := by
  intro hm; have := h _ hm; cases this

/-- Something else happens to an adapter that has not been freed. -/
theorem Inv.idle {a b : Adapter} (h : Inv a) (hp : Phase b) (ha : a.alive = true) (hb : b.alive = true) {l : List Trace}
    (hl : ∀ t ∈ l, isIdle t = true) (e1 : b.log = a.log ++ l) (e2 : b.given = a.given) (e3 : ∀ u, b.ops.get u = a.ops.get u)
    (e4 : b.incomplete = a.incomplete) (e5 : a.nextUid ≤ b.nextUid) : Inv b := by
  have sub : ∀ uid k, Trace.submitted uid k ∈ b.log ↔ Trace.submitted uid k ∈ a.log := by
    intro uid k
    rw [e1, List.mem_append]
    exact ⟨fun h => h.resolve_right (idle_submitted hl uid k), .inl⟩
  have nt : Trace.terminated ∉ a.log := by rw [h.ended, ha]; simp
  have ans : ∀ uid, answers b.log uid = answers a.log uid := by
    intro uid; rw [e1, answers_append, idle_answers hl]; rfl
  have rep : ∀ uid, reports b.log uid = reports a.log uid := by
    intro uid; rw [e1, reports_append, idle_reports hl]; rfl
  have ntb : Trace.terminated ∉ b.log := by
    rw [e1, List.mem_append]; rintro (h | h)
    · exact nt h
    · exact idle_terminated hl h
  refine ⟨hp, ?_, ?_, ?_, ?_, ?_, ?_, ?_, ?_, ?_, ?_, ?_, ?_⟩
  · rw [hb]; exact ⟨fun h => absurd h ntb, fun h => by cases h⟩
  · intro uid; rw [e2, e3]; exact h.given uid
  · intro uid op ho; rw [e3] at ho; rw [sub]; exact h.kinds uid op ho
  · intro uid k k' h1 h2; rw [sub] at h1 h2; exact h.same uid k k' h1 h2
  · intro uid k h1; rw [sub] at h1; exact Nat.lt_of_lt_of_le (h.bound uid k h1) e5
  · intro _ uid; rw [e3, e4]; exact h.live ha uid
  · intro uid op ho; rw [e3] at ho; rw [hb, ← ha]; exact h.pointer uid op ho
  · rw [hb]; exact fun h => by cases h
  · rw [e4]; exact h.nodup
  · intro uid hk
    rw [ans, rep]
    exact h.asked uid fun k hm => hk k ((sub uid k).2 hm)
  · intro uid k hk; rw [ans, e2]; exact h.answered uid k ((sub uid k).1 hk)
  · intro uid k hk
    rw [rep, hb, early_self ntb, ans]
    have := h.reported uid k ((sub uid k).1 hk)
    rw [ha, early_self nt] at this
    exact this

theorem Inv.fresh {a : Adapter} (h : Inv a) (k : Kind) : Trace.submitted a.nextUid k ∉ a.log := by
  intro hm; exact absurd (h.bound _ _ hm) (Nat.lt_irrefl _)

theorem Inv.freshOp {a : Adapter} (h : Inv a) : a.ops.get a.nextUid = none := by
  cases ho : a.ops.get a.nextUid with
  | none => rfl
  | some op => exact absurd (h.kinds _ _ ho) (h.fresh _)

theorem Inv.submit {a b : Adapter} (h : Inv a) {kind : Kind} {ok : Bool} (hd : a.dying = false)
    (hs : a.submit kind ok = .ok b) : Inv b := by
  have ha : a.alive = true := by
    cases h.phase <;> first | assumption | (rename_i e _ _; rw [hd] at e; cases e)
  have hph : ∀ b : Adapter, b.tasks = a.tasks → b.refs = a.refs → b.dying = a.dying → b.alive = a.alive →
      b.attached = a.attached → Phase b := by
    intro b e1 e2 e3 e4 e5
    rcases h.phase with ⟨p1, p2, p3, p4, p5⟩ | ⟨p1, p2, p3, p4, p5⟩ | ⟨p1, p2, p3, p4, p5⟩ | ⟨p1, p2, p3, p4, p5⟩ |
      ⟨p1, p2, p3, p4, p5⟩
    · exact .fresh (e1.trans p1) (e2.trans p2) (e3.trans p3) (e4.trans p4) (e5.trans p5)
    · exact .hasty (e1.trans p1) (e2.trans p2) (e3.trans p3) (e4.trans p4) (e5.trans p5)
    · exact .on (e1.trans p1) (e2.trans p2) (e3.trans p3) (e4.trans p4) (e5.trans p5)
    · exact .going (e1.trans p1) (e2.trans p2) (e3.trans p3) (e4.trans p4) (e5.trans p5)
    · exact .gone (e1.trans p1) (e2.trans p2) (e3.trans p3) (e4.trans p4) (e5.trans p5)
  have nt : Trace.terminated ∉ a.log := by rw [h.ended, ha]; simp
  have hno : a.nextUid ∉ a.incomplete := by rw [h.live ha, h.freshOp]; simp
  unfold Adapter.submit at hs
  rw [if_neg (by simp [ha])] at hs
  simp only at hs
  cases ok with
  | false =>
    rw [if_neg (by simp)] at hs
    cases hs
    refine h.idle (l := [.refused kind]) (hph _ rfl rfl rfl rfl rfl) ha ha (by simp [isIdle]) rfl rfl ?_ ?_ (Nat.le_succ _)
    · intro u
      simp only [Adapter.free, AMap.get_del, AMap.get_set]
      split
      · next e => rw [e, h.freshOp]
      · rfl
    · simp only [Adapter.free, List.filter_append]
      rw [List.filter_eq_self.2]
      · simp
      · intro u hu; simp only [ne_eq, decide_eq_true_eq]; intro e; rw [e] at hu; exact hno hu
  | true =>
    rw [if_pos rfl] at hs
    cases hs
    have sub : ∀ uid k, Trace.submitted uid k ∈ a.log ++ [Trace.submitted a.nextUid kind] ↔
        Trace.submitted uid k ∈ a.log ∨ (uid = a.nextUid ∧ k = kind) := by intro uid k; simp
    have ans : ∀ uid, answers (a.log ++ [Trace.submitted a.nextUid kind]) uid = answers a.log uid := by
      intro uid; rw [answers_append]; simp [answers, isAnswer]
    have rep : ∀ uid, reports (a.log ++ [Trace.submitted a.nextUid kind]) uid = reports a.log uid := by
      intro uid; rw [reports_append]; simp [reports, isReport]
    have ntb : Trace.terminated ∉ a.log ++ [Trace.submitted a.nextUid kind] := by simp [nt]
    have zero := h.asked a.nextUid h.fresh
    refine ⟨hph _ rfl rfl rfl rfl rfl, ?_, ?_, ?_, ?_, ?_, ?_, ?_, ?_, ?_, ?_, ?_, ?_⟩
    · simp only [ha]; exact ⟨fun h => absurd h ntb, fun h => by cases h⟩
    · intro uid
      simp only [List.mem_append, List.mem_singleton, AMap.get_set]
      rw [h.given]
      split
      · next e => simp [e]
      · next e => simp [e]
    · intro uid op ho
      simp only [AMap.get_set] at ho
      show _ ∈ _ ++ _
      rw [sub]
      split at ho
      · next e => cases ho; exact .inr ⟨e, rfl⟩
      · exact .inl (h.kinds uid op ho)
    · intro uid k k' h1 h2
      simp only [sub] at h1 h2
      rcases h1 with h1 | ⟨e1, h1⟩ <;> rcases h2 with h2 | ⟨e2, h2⟩
      · exact h.same uid k k' h1 h2
      · rw [e2] at h1; exact absurd h1 (h.fresh _)
      · rw [e1] at h2; exact absurd h2 (h.fresh _)
      · rw [h1, h2]
    · intro uid k h1
      simp only [sub] at h1
      rcases h1 with h1 | ⟨e1, _⟩
      · exact Nat.lt_succ_of_lt (h.bound uid k h1)
      · rw [e1]; exact Nat.lt_succ_self _
    · intro _ uid
      simp only [List.mem_append, List.mem_singleton, AMap.get_set]
      rw [h.live ha]
      split
      · next e => simp [e]
      · next e => simp [e]
    · intro uid op ho
      simp only [AMap.get_set] at ho
      split at ho
      · cases ho; exact ha.symm
      · exact h.pointer uid op ho
    · simp [ha]
    · simp only
      rw [List.nodup_append]
      refine ⟨h.nodup, by simp, ?_⟩
      intro u hu v hv e
      simp only [List.mem_singleton] at hv
      rw [e, hv] at hu; exact hno hu
    · intro uid hk
      simp only [ans, rep]
      exact h.asked uid fun k hm => hk k ((sub uid k).2 (.inl hm))
    · intro uid k hk
      simp only [ans, List.mem_append, List.mem_singleton]
      simp only [sub] at hk
      rcases hk with hk | ⟨e, _⟩
      · rw [h.answered uid k hk]
        have : uid ≠ a.nextUid := fun e => by rw [e] at hk; exact absurd hk (h.fresh _)
        simp [this]
      · rw [e, zero.1]; simp
    · intro uid k hk
      simp only [rep, early_self ntb, ans, ha]
      simp only [sub] at hk
      rcases hk with hk | ⟨e, _⟩
      · have := h.reported uid k hk
        rw [ha, early_self nt] at this
        exact this
      · rw [e, zero.1, zero.2]; simp

theorem callback_report (op : Op) (uid u : Nat) (x : Answer) : isReport u (op.callback uid x) = (uid == u) := by
  unfold Op.callback; cases op.kind <;> rfl

theorem callback_shape (op : Op) (uid : Nat) (x : Answer) :
    op.callback uid x ≠ .terminated ∧ (∀ u k, op.callback uid x ≠ .submitted u k) ∧ ∀ u, isAnswer u (op.callback uid x) = false := by
  unfold Op.callback; cases op.kind <;> simp [isAnswer]

theorem phase_same {a b : Adapter} (h : Phase a) (e1 : b.tasks = a.tasks) (e2 : b.refs = a.refs) (e3 : b.dying = a.dying)
    (e4 : b.alive = a.alive) (e5 : b.attached = a.attached) : Phase b := by
  rcases h with ⟨p1, p2, p3, p4, p5⟩ | ⟨p1, p2, p3, p4, p5⟩ | ⟨p1, p2, p3, p4, p5⟩ | ⟨p1, p2, p3, p4, p5⟩ |
    ⟨p1, p2, p3, p4, p5⟩
  · exact .fresh (e1.trans p1) (e2.trans p2) (e3.trans p3) (e4.trans p4) (e5.trans p5)
  · exact .hasty (e1.trans p1) (e2.trans p2) (e3.trans p3) (e4.trans p4) (e5.trans p5)
  · exact .on (e1.trans p1) (e2.trans p2) (e3.trans p3) (e4.trans p4) (e5.trans p5)
  · exact .going (e1.trans p1) (e2.trans p2) (e3.trans p3) (e4.trans p4) (e5.trans p5)
  · exact .gone (e1.trans p1) (e2.trans p2) (e3.trans p3) (e4.trans p4) (e5.trans p5)

/-- An operation is complete: what is told is `l`. -/
theorem Inv.done {a b : Adapter} (h : Inv a) {uid : Nat} {op : Op} (ho : a.ops.get uid = some op) (hp : Phase b)
    (e0 : b.alive = a.alive) {l : List Trace} (e1 : b.log = a.log ++ l) (hn : .terminated ∉ l) (hk : ∀ u k, .submitted u k ∉ l)
    (ha : ∀ u, answers l u = if u = uid then 1 else 0)
    (hr : ∀ u, reports l u = if u = uid ∧ a.alive = true then 1 else 0)
    (e2 : b.given = a.given.filter (· ≠ uid)) (e3 : b.ops = a.ops.del uid)
    (e4 : b.incomplete = a.incomplete.filter (· ≠ uid)) (e5 : b.nextUid = a.nextUid) : Inv b := by
  have sub : ∀ uid k, Trace.submitted uid k ∈ b.log ↔ Trace.submitted uid k ∈ a.log := by
    intro uid k
    rw [e1, List.mem_append]
    exact ⟨fun h => h.resolve_right (hk uid k), .inl⟩
  have mine := h.kinds uid op ho
  refine ⟨hp, ?_, ?_, ?_, ?_, ?_, ?_, ?_, ?_, ?_, ?_, ?_, ?_⟩
  · rw [e0, e1, List.mem_append, ← h.ended]; exact ⟨fun h => h.resolve_right hn, .inl⟩
  · intro u
    rw [e2, e3, AMap.get_del, List.mem_filter, h.given]
    by_cases hu : u = uid <;> simp [hu]
  · intro u op' ho'
    rw [e3, AMap.get_del] at ho'
    rw [sub]
    split at ho'
    · cases ho'
    · exact h.kinds u op' ho'
  · intro u k k' h1 h2; rw [sub] at h1 h2; exact h.same u k k' h1 h2
  · intro u k h1; rw [sub] at h1; rw [e5]; exact h.bound u k h1
  · intro hb u
    rw [e0] at hb
    rw [e3, e4, AMap.get_del, List.mem_filter, h.live hb]
    by_cases hu : u = uid <;> simp [hu]
  · intro u op' ho'
    rw [e3, AMap.get_del] at ho'
    rw [e0]
    split at ho'
    · cases ho'
    · exact h.pointer u op' ho'
  · intro hb; rw [e0] at hb; rw [e4, h.dead hb]; rfl
  · rw [e4]; exact h.nodup.filter _
  · intro u hu
    have hne : u ≠ uid := fun e => hu op.kind ((sub _ _).2 (by rw [e]; exact mine))
    rw [e1, answers_append, reports_append, ha, hr, if_neg hne, if_neg (fun e => hne e.1)]
    exact h.asked u fun k hm => hu k ((sub u k).2 hm)
  · intro u k hu
    rw [sub] at hu
    rw [e1, answers_append, ha, h.answered u k hu]
    simp only [e2, List.mem_filter]
    by_cases e : u = uid
    · rw [e, if_pos ((h.given uid).2 (by rw [ho]; rfl))]; simp
    · simp [e]
  · intro u k hu
    rw [sub] at hu
    rw [e1, reports_append, hr, h.reported u k hu, e0]
    by_cases hal : a.alive = true
    · have nt : Trace.terminated ∉ a.log := by rw [h.ended, hal]; simp
      rw [early_self nt, early_self (by simp [nt, hn]), answers_append, ha]
      simp [hal]
    · have hal : a.alive = false := by simpa using hal
      have nt : Trace.terminated ∈ a.log := h.ended.2 hal
      rw [early_after nt]
      simp [hal]

theorem Inv.complete {a b : Adapter} (h : Inv a) {uid : Nat} {x : Answer} (hs : a.complete uid x = .ok b) : Inv b := by
  unfold Adapter.complete at hs
  split at hs
  · cases hs
  · next op ho =>
    have hpt := h.pointer uid op ho
    simp only at hs
    split at hs
    · next hop =>
      have hal : a.alive = false := by rw [← hpt]; simpa using hop
      cases hs
      refine h.done ho (phase_same h.phase rfl rfl rfl rfl rfl) rfl (l := [.answered uid x]) rfl (by simp) (by simp) ?_ ?_ rfl rfl
        rfl rfl
      · intro u
        simp only [answers, List.countP_singleton, isAnswer, beq_iff_eq]
        by_cases e : u = uid
        · simp [e]
        · rw [if_neg e, if_neg (fun e' => e e'.symm)]
      · intro u; simp [reports, isReport, hal]
    · next hop =>
      have hal : a.alive = true := by rw [← hpt]; simpa using hop
      rw [if_neg (by simp [hal])] at hs
      cases hs
      obtain ⟨c1, c2, c3⟩ := callback_shape op uid x
      refine h.done ho (phase_same h.phase rfl rfl rfl rfl rfl) rfl (l := [.answered uid x, op.callback uid x]) (by simp [Adapter.free])
        (by simp only [List.mem_cons, List.not_mem_nil, or_false, reduceCtorEq, false_or]; exact fun e => c1 e.symm)
        (by
          intro u k
          simp only [List.mem_cons, List.not_mem_nil, or_false, reduceCtorEq, false_or]
          exact fun e => c2 u k e.symm) ?_ ?_ rfl rfl rfl rfl
      · intro u
        have c4 := c3 u
        generalize op.callback uid x = t at c4
        simp only [answers, List.countP_cons, List.countP_nil, c4]
        simp only [isAnswer, beq_iff_eq]
        by_cases e : u = uid
        · simp [e]
        · have e' : ¬ uid = u := fun h => e h.symm
          simp [e, e']
      · intro u
        have c4 := callback_report op uid u x
        generalize op.callback uid x = t at c4
        simp only [reports, List.countP_cons, List.countP_nil, c4, hal, and_true]
        simp only [isReport, beq_iff_eq]
        by_cases e : u = uid
        · simp [e]
        · rw [if_neg e, if_neg (fun e' => e e'.symm)]; rfl

theorem Inv.terminate {a b : Adapter} (h : Inv a) (hal : a.alive = true) {c : Adapter}
    (e : c = { a with tasks := [], attached := false }) (hph : a.refs = 0 ∧ a.dying = true)
    (hs : c.terminate = .ok b) : Inv b := by
  have hlist : ¬ (!c.alive || c.incomplete.any fun uid => (c.ops.get uid).isNone) = true := by
    intro hb; unfold Adapter.terminate at hs; rw [if_pos hb] at hs; cases hs
  unfold Adapter.terminate at hs
  rw [if_neg hlist] at hs
  have nt : Trace.terminated ∉ a.log := by rw [h.ended, hal]; simp
  simp only at hs
  obtain ⟨m, em, hm⟩ := orphan_eq c.incomplete { c with incomplete := [] }
  rw [em] at hs
  subst e
  cases hs
  simp only at hm ⊢
  have hl : ∀ t ∈ orphanLog a.ops a.incomplete, ∃ uid op, t = Trace.published uid .shutDown ∧ uid ∈ a.incomplete ∧
      a.ops.get uid = some op ∧ op.kind = .publish := fun t ht => orphanLog_shape ht
  have sub : ∀ uid k, Trace.submitted uid k ∈ a.log ++ orphanLog a.ops a.incomplete ++ [Trace.terminated] ↔
      Trace.submitted uid k ∈ a.log := by
    intro uid k
    simp only [List.mem_append, List.mem_singleton, reduceCtorEq, or_false]
    refine ⟨fun h => h.resolve_right ?_, .inl⟩
    intro h; obtain ⟨_, _, e, _⟩ := hl _ h; cases e
  have nto : Trace.terminated ∉ orphanLog a.ops a.incomplete := by
    intro h; obtain ⟨_, _, e, _⟩ := hl _ h; cases e
  have ans0 : ∀ uid, answers (orphanLog a.ops a.incomplete) uid = 0 := by
    intro uid
    unfold answers
    rw [List.countP_eq_zero]
    intro t ht
    obtain ⟨_, _, e, _⟩ := hl _ ht
    rw [e]; simp [isAnswer]
  have ans : ∀ uid, answers (a.log ++ orphanLog a.ops a.incomplete ++ [Trace.terminated]) uid = answers a.log uid := by
    intro uid; rw [answers_append, answers_append, ans0]; simp [answers, isAnswer]
  have rep : ∀ uid, reports (a.log ++ orphanLog a.ops a.incomplete ++ [Trace.terminated]) uid = reports a.log uid +
      (if uid ∈ a.incomplete ∧ ∃ op, a.ops.get uid = some op ∧ op.kind = .publish then 1 else 0) := by
    intro uid
    rw [reports_append, reports_append, orphanLog_reports h.nodup]
    simp [reports, isReport]
  have get' : ∀ u, m.get u = (a.ops.get u).map fun op => { op with adapter := false } := by
    intro u
    rw [hm u]
    split
    · rfl
    · next hu =>
      cases ho : a.ops.get u with
      | none => rfl
      | some op => exact absurd ((h.live hal u).2 (by rw [ho]; rfl)) hu
  refine ⟨.gone rfl hph.1 hph.2 rfl rfl, ?_, ?_, ?_, ?_, ?_, ?_, ?_, ?_, ?_, ?_, ?_, ?_⟩
  · simp
  · intro uid
    show uid ∈ a.given ↔ _
    rw [h.given, get']
    cases a.ops.get uid <;> simp
  · intro uid op ho
    rw [get'] at ho
    rw [sub]
    cases ho' : a.ops.get uid with
    | none => rw [ho'] at ho; cases ho
    | some op' => rw [ho'] at ho; cases ho; exact h.kinds uid op' ho'
  · intro uid k k' h1 h2; rw [sub] at h1 h2; exact h.same uid k k' h1 h2
  · intro uid k h1; rw [sub] at h1; exact h.bound uid k h1
  · intro hb; cases hb
  · intro uid op ho
    rw [get'] at ho
    cases ho' : a.ops.get uid with
    | none => rw [ho'] at ho; cases ho
    | some op' => rw [ho'] at ho; cases ho; rfl
  · intro _; rfl
  · exact List.nodup_nil
  · intro uid hk
    have hk : ∀ k, Trace.submitted uid k ∉ a.log := fun k hm => hk k ((sub uid k).2 hm)
    rw [ans, rep, if_neg]
    · exact h.asked uid hk
    · rintro ⟨_, op, ho, _⟩; exact hk _ (h.kinds _ _ ho)
  · intro uid k hk
    rw [sub] at hk
    rw [ans]
    exact h.answered uid k hk
  · intro uid k hk
    rw [sub] at hk
    have ee : early (a.log ++ orphanLog a.ops a.incomplete ++ [Trace.terminated]) = a.log ++ orphanLog a.ops a.incomplete := by
      rw [early_before (by simp [nt, nto])]; simp [early]
    rw [rep, ee, answers_append, ans0, h.reported uid k hk, early_self nt, h.answered uid k hk]
    simp only [hal, Bool.true_eq_false, and_false, if_false, and_true, Nat.add_zero]
    by_cases hg : uid ∈ a.given
    · have hs : (a.ops.get uid).isSome := (h.given uid).1 hg
      obtain ⟨op, ho⟩ := Option.isSome_iff_exists.1 hs
      have hk' := h.same uid _ _ hk (h.kinds uid op ho)
      have hi : uid ∈ a.incomplete := (h.live hal uid).2 hs
      have hex : (uid ∈ a.incomplete ∧ ∃ op, a.ops.get uid = some op ∧ op.kind = .publish) ↔ k = .publish := by
        rw [hk', ho]
        exact ⟨fun ⟨_, o, e, ek⟩ => by cases e; exact ek, fun e => ⟨hi, op, rfl, e⟩⟩
      simp only [hex, hg, if_true, Nat.zero_add]
    · have hi : uid ∉ a.incomplete := fun hi => hg ((h.given uid).2 ((h.live hal uid).1 hi))
      simp [hg, hi]

theorem Inv.step {a b : Adapter} {v : Version} {e : Event} (h : Inv a) (he : Enabled v a e) (hs : step a e = .ok b) : Inv b := by
  cases e with
  | submit kind ok => exact h.submit he hs
  | complete uid x => exact h.complete hs
  | destroy =>
    simp only [Rrpa.step, Adapter.destroy] at hs
    simp only [Enabled] at he
    split at hs
    · cases hs
    · next hal =>
      have hal : a.alive = true := by simpa using hal
      cases hs
      refine h.idle (l := [.destroying]) ?_ hal hal (by simp [isIdle]) rfl rfl (fun _ => rfl) rfl (Nat.le_refl _)
      unfold Adapter.releaseListener
      rcases h.phase with ⟨p1, p2, p3, p4, p5⟩ | ⟨p1, p2, p3, p4, p5⟩ | ⟨p1, p2, p3, p4, p5⟩ | ⟨p1, p2, p3, p4, p5⟩ |
        ⟨p1, p2, p3, p4, p5⟩
      · exact .hasty (by simp [p1, p2]) (by simp [p2]) rfl p4 p5
      · rw [he] at p3; cases p3
      · exact .going (by simp [p1, p2]) (by simp [p2]) rfl p4 p5
      · rw [he] at p3; cases p3
      · rw [he] at p3; cases p3
  | run =>
    simp only [Rrpa.step, Adapter.run] at hs
    split at hs
    · cases hs; exact h
    · next rest ht =>
      cases hs
      rcases h.phase with ⟨p1, p2, p3, p4, p5⟩ | ⟨p1, p2, p3, p4, p5⟩ | ⟨p1, p2, p3, p4, p5⟩ | ⟨p1, p2, p3, p4, p5⟩ |
        ⟨p1, p2, p3, p4, p5⟩
      · rw [p1] at ht; cases ht
        refine h.idle (l := []) ?_ p4 p4 (by simp) (by simp [Adapter.releaseListener]) rfl (fun _ => rfl) rfl (Nat.le_refl _)
        exact .on (by simp [Adapter.releaseListener, p2]) (by simp [Adapter.releaseListener, p2]) p3 p4 rfl
      · rw [p1] at ht; cases ht
        refine h.idle (l := []) ?_ p4 p4 (by simp) (by simp [Adapter.releaseListener]) rfl (fun _ => rfl) rfl (Nat.le_refl _)
        exact .going (by simp [Adapter.releaseListener, p2]) (by simp [Adapter.releaseListener, p2]) p3 p4 rfl
      · rw [p1] at ht; cases ht
      · rw [p1] at ht; cases ht
      · rw [p1] at ht; cases ht
    · next rest ht =>
      rcases h.phase with ⟨p1, p2, p3, p4, p5⟩ | ⟨p1, p2, p3, p4, p5⟩ | ⟨p1, p2, p3, p4, p5⟩ | ⟨p1, p2, p3, p4, p5⟩ |
        ⟨p1, p2, p3, p4, p5⟩
      · rw [p1] at ht; cases ht
      · rw [p1] at ht; cases ht
      · rw [p1] at ht; cases ht
      · rw [p1] at ht; cases ht
        exact h.terminate p4 rfl ⟨p2, p3⟩ hs
      · rw [p1] at ht; cases ht
  | news n =>
    simp only [Rrpa.step] at hs
    split at hs
    · cases hs; exact h
    · split at hs
      · cases hs
      · next hal =>
        have hal : a.alive = true := by simpa using hal
        cases hs
        refine h.idle (l := n.tell) (phase_same h.phase rfl rfl rfl rfl rfl) hal hal ?_ rfl rfl (fun _ => rfl) rfl (Nat.le_refl _)
        cases n <;> simp [News.tell, isIdle]
  | publish t p =>
    simp only [Rrpa.step] at hs
    split at hs
    · cases hs; exact h
    · split at hs
      · cases hs
      · next hal =>
        have hal : a.alive = true := by simpa using hal
        cases hs
        exact h.idle (l := [.incoming t p]) (phase_same h.phase rfl rfl rfl rfl rfl) hal hal (by simp [isIdle]) rfl rfl
          (fun _ => rfl) rfl (Nat.le_refl _)

theorem Reachable.inv {a : Adapter} {v : Version} (h : Reachable v a) : Inv a := by
  induction h with
  | new => exact Inv.new
  | step _ he hs ih => exact ih.step he hs

theorem Inv.safe {a : Adapter} {v : Version} {e : Event} (h : Inv a) (he : Enabled v a e) : ∃ b, Rrpa.step a e = .ok b := by
  have hatt : a.attached = true → a.alive = true := by
    intro ha
    rcases h.phase with ⟨_, _, _, p4, p5⟩ | ⟨_, _, _, p4, p5⟩ | ⟨_, _, _, p4, p5⟩ | ⟨_, _, _, p4, p5⟩ | ⟨_, _, _, p4, p5⟩ <;>
      first | exact p4 | (rw [ha] at p5; cases p5)
  have hdy : a.dying = false → a.alive = true := by
    intro ha
    rcases h.phase with ⟨_, _, p3, p4, _⟩ | ⟨_, _, p3, p4, _⟩ | ⟨_, _, p3, p4, _⟩ | ⟨_, _, p3, p4, _⟩ | ⟨_, _, p3, p4, _⟩ <;>
      first | exact p4 | (rw [ha] at p3; cases p3)
  cases e with
  | submit kind ok =>
    simp only [Rrpa.step, Adapter.submit, hdy he, Bool.not_true, Bool.false_eq_true, if_false]
    split
    · exact ⟨_, rfl⟩
    · exact ⟨_, rfl⟩
  | complete uid x =>
    obtain ⟨op, ho⟩ := Option.isSome_iff_exists.1 ((h.given uid).1 he.1)
    have := h.pointer uid op ho
    simp only [Rrpa.step, Adapter.complete, ho, this]
    cases a.alive with
    | true => exact ⟨_, rfl⟩
    | false => exact ⟨_, rfl⟩
  | destroy =>
    simp only [Rrpa.step, Adapter.destroy, hdy he, Bool.not_true, Bool.false_eq_true, if_false]
    exact ⟨_, rfl⟩
  | run =>
    simp only [Rrpa.step, Adapter.run]
    split
    · exact ⟨_, rfl⟩
    · exact ⟨_, rfl⟩
    · next rest ht =>
      have : a.alive = true := by
        rcases h.phase with ⟨p1, _, _, p4, _⟩ | ⟨p1, _, _, p4, _⟩ | ⟨p1, _, _, p4, _⟩ | ⟨p1, _, _, p4, _⟩ | ⟨p1, _, _, p4, _⟩ <;>
          first | exact p4 | (rw [ht] at p1; cases p1)
      have hb : ¬ (!a.alive || a.incomplete.any fun uid => (a.ops.get uid).isNone) = true := by
        simp only [this, Bool.not_true, Bool.false_or, List.any_eq_true, not_exists, not_and]
        intro uid hu hn
        have := (h.live this uid).1 hu
        cases ho : a.ops.get uid with
        | none => rw [ho] at this; cases this
        | some op => rw [ho] at hn; cases hn
      simp only [Adapter.terminate]
      rw [if_neg hb]
      exact ⟨_, rfl⟩
  | news n =>
    simp only [Rrpa.step]
    split
    · exact ⟨_, rfl⟩
    · next ha =>
      rw [if_neg (by simp [hatt (by simpa using ha)])]
      exact ⟨_, rfl⟩
  | publish t p =>
    simp only [Rrpa.step]
    split
    · exact ⟨_, rfl⟩
    · next ha =>
      rw [if_neg (by simp [hatt (by simpa using ha)])]
      exact ⟨_, rfl⟩

/-! ### Where the callbacks come from -/

/-- What stands before a callback for an operation. -/
def Cause (v : Version) (pre : List Trace) (t : Trace) (uid : Nat) : Prop :=
  .terminated ∉ pre ∧
  ((∃ kind x before, pre = before ++ [.answered uid x] ∧ .submitted uid kind ∈ before ∧ x.answers v kind = true ∧
      answers before uid = 0 ∧ Reports kind uid x.report.1 x.report.2 t) ∨
   (t = .published uid .shutDown ∧ .submitted uid .publish ∈ pre ∧ .destroying ∈ pre ∧ answers pre uid = 0))

/-- A report of a kind of operation says the right thing about the right filter. -/
theorem callback_reports (op : Op) (uid : Nat) (x : Answer) : Reports op.kind uid x.report.1 x.report.2 (op.callback uid x) := by
  unfold Op.callback
  cases hk : op.kind <;> simp [Reports]

def Caused (v : Version) (log : List Trace) : Prop :=
  ∀ pre t post uid, log = pre ++ t :: post → isReport uid t = true → Cause v pre t uid

theorem Caused.append {v : Version} {log l : List Trace} (h : Caused v log)
    (hl : ∀ pre t post uid, l = pre ++ t :: post → isReport uid t = true → Cause v (log ++ pre) t uid) : Caused v (log ++ l) := by
  intro pre t post uid e hr
  rcases List.append_eq_append_iff.1 e with ⟨m, e1, e2⟩ | ⟨m, e1, e2⟩
  · rw [e1]; exact hl m t post uid e2 hr
  · cases m with
    | nil =>
      simp only [List.nil_append] at e2
      have := hl [] t post uid e2.symm hr
      rw [List.append_nil] at this e1
      rw [← e1]; exact this
    | cons t' m =>
      simp only [List.cons_append, List.cons.injEq] at e2
      rw [e2.1] at hr ⊢
      exact h pre t' m uid e1 (by exact hr)

theorem Caused.quiet {v : Version} {log l : List Trace} (h : Caused v log) (hl : ∀ t ∈ l, ∀ uid, isReport uid t = false) :
    Caused v (log ++ l) :=
  h.append fun pre t post uid e hr => by
    have := hl t (by rw [e]; simp) uid
    rw [hr] at this; cases this

theorem Inv.destroying {a : Adapter} {v : Version} (h : Reachable v a) (hd : a.dying = true) : .destroying ∈ a.log := by
  induction h with
  | new => cases hd
  | @step a a' e h0 he hs ih =>
    cases e with
    | submit kind ok =>
      simp only [Rrpa.step, Adapter.submit] at hs
      split at hs
      · cases hs
      · cases ok <;> (simp at hs; cases hs; exact List.mem_append_left _ (ih hd))
    | complete uid x =>
      simp only [Rrpa.step, Adapter.complete] at hs
      split at hs
      · cases hs
      · split at hs
        · cases hs; exact List.mem_append_left _ (ih hd)
        · split at hs
          · cases hs
          · cases hs; exact List.mem_append_left _ (List.mem_append_left _ (ih hd))
    | destroy =>
      simp only [Rrpa.step, Adapter.destroy] at hs
      split at hs
      · cases hs
      · cases hs; simp [Adapter.releaseListener]
    | run =>
      simp only [Rrpa.step, Adapter.run] at hs
      split at hs
      · cases hs; exact ih hd
      · cases hs; exact ih hd
      · simp only [Adapter.terminate] at hs
        split at hs
        · cases hs
        · obtain ⟨m, em, _⟩ := orphan_eq a.incomplete { a with tasks := _, attached := false, incomplete := [] }
          rw [em] at hs
          cases hs
          exact List.mem_append_left _ (List.mem_append_left _ (ih hd))
    | news n =>
      simp only [Rrpa.step] at hs
      split at hs
      · cases hs; exact ih hd
      · split at hs
        · cases hs
        · cases hs; exact List.mem_append_left _ (ih hd)
    | publish t p =>
      simp only [Rrpa.step] at hs
      split at hs
      · cases hs; exact ih hd
      · split at hs
        · cases hs
        · cases hs; exact List.mem_append_left _ (ih hd)

theorem orphanLog_answers (ops : AMap Nat Op) (pre post : List Trace) (us : List Nat) (h : orphanLog ops us = pre ++ post)
    (uid : Nat) : answers pre uid = 0 ∧ .terminated ∉ pre := by
  have hm : ∀ t ∈ pre, ∃ u op, t = Trace.published u .shutDown ∧ u ∈ us ∧ ops.get u = some op ∧ op.kind = .publish :=
    fun t ht => orphanLog_shape (by rw [h]; simp [ht])
  constructor
  · unfold answers
    rw [List.countP_eq_zero]
    intro t ht
    obtain ⟨_, _, e, _⟩ := hm t ht
    rw [e]; simp [isAnswer]
  · intro ht; obtain ⟨_, _, e, _⟩ := hm _ ht; cases e

theorem Caused.step {a b : Adapter} {v : Version} {e : Event} (h0 : Reachable v a) (h : Caused v a.log) (he : Enabled v a e)
    (hs : Rrpa.step a e = .ok b) : Caused v b.log := by
  have hi := h0.inv
  cases e with
  | submit kind ok =>
    simp only [Rrpa.step, Adapter.submit] at hs
    split at hs
    · cases hs
    · cases ok <;> (simp at hs; cases hs; exact h.quiet (by simp [isReport]))
  | complete uid x =>
    simp only [Rrpa.step, Adapter.complete] at hs
    split at hs
    · cases hs
    · next op ho =>
      split at hs
      · cases hs; exact h.quiet (by simp [isReport])
      · next hop =>
        split at hs
        · cases hs
        · next hal =>
          cases hs
          have hal : a.alive = true := by simpa using hal
          have hk := hi.kinds uid op ho
          show Caused v (a.log ++ [_] ++ [_])
          rw [List.append_assoc]
          refine h.append ?_
          intro pre t post u e hr
          simp only [List.cons_append, List.nil_append] at e
          rcases List.cons_eq_append_iff.1 e with ⟨e1, e2⟩ | ⟨p', e1, e2⟩
          · cases e2; simp [isReport] at hr
          · rcases List.cons_eq_append_iff.1 e2 with ⟨e3, e4⟩ | ⟨p2, e3, e4⟩
            · cases e4
              rw [callback_report] at hr
              have hu : uid = u := by simpa using hr
              subst hu
              have nt : Trace.terminated ∉ a.log := by rw [hi.ended, hal]; simp
              rw [e1, e3]
              refine ⟨by simp [nt], .inl ⟨op.kind, x, a.log, rfl, hk, he.2 _ hk, ?_, callback_reports op uid x⟩⟩
              rw [hi.answered uid _ hk, if_pos he.1]
            · exact absurd e4 (by simp)
  | destroy =>
    simp only [Rrpa.step, Adapter.destroy] at hs
    split at hs
    · cases hs
    · cases hs
      exact h.quiet (by simp [isReport])
  | run =>
    simp only [Rrpa.step, Adapter.run] at hs
    split at hs
    · cases hs; exact h
    · cases hs; exact h
    · next rest ht =>
      simp only [Adapter.terminate] at hs
      split at hs
      · cases hs
      · next hal =>
        have hal : a.alive = true := by
          cases e : a.alive with
          | true => rfl
          | false => rw [e] at hal; simp at hal
        have hdy : a.dying = true := by
          rcases hi.phase with ⟨p1, _, p3, _, _⟩ | ⟨p1, _, p3, _, _⟩ | ⟨p1, _, p3, _, _⟩ | ⟨p1, _, p3, _, _⟩ | ⟨p1, _, p3, _, _⟩ <;>
            first | exact p3 | (rw [ht] at p1; cases p1)
        have hde := Inv.destroying h0 hdy
        obtain ⟨m, em, _⟩ := orphan_eq a.incomplete { a with tasks := rest, attached := false, incomplete := [] }
        rw [em] at hs
        cases hs
        have nt : Trace.terminated ∉ a.log := by rw [hi.ended, hal]; simp
        show Caused v (a.log ++ orphanLog a.ops a.incomplete ++ [Trace.terminated])
        refine Caused.quiet ?_ (by simp [isReport])
        refine h.append ?_
        intro pre t post u e hr
        obtain ⟨h1, h2⟩ := orphanLog_answers a.ops pre (t :: post) a.incomplete e u
        obtain ⟨u', op, et, hu, ho, hk⟩ := orphanLog_shape (ops := a.ops) (l := a.incomplete) (t := t) (by rw [e]; simp)
        subst et
        simp only [isReport, beq_iff_eq] at hr
        subst hr
        have hsub := hi.kinds _ _ ho
        rw [hk] at hsub
        refine ⟨by simp [nt, h2], .inr ⟨rfl, List.mem_append_left _ hsub, List.mem_append_left _ hde, ?_⟩⟩
        rw [answers_append, h1, hi.answered _ _ hsub, if_pos ((hi.given _).2 (by rw [ho]; rfl))]
  | news n =>
    simp only [Rrpa.step] at hs
    split at hs
    · cases hs; exact h
    · split at hs
      · cases hs
      · cases hs
        refine h.quiet ?_
        cases n <;> simp [News.tell, isReport]
  | publish t p =>
    simp only [Rrpa.step] at hs
    split at hs
    · cases hs; exact h
    · split at hs
      · cases hs
      · cases hs; exact h.quiet (by simp [isReport])

theorem Reachable.caused {a : Adapter} {v : Version} (h : Reachable v a) : Caused v a.log := by
  induction h with
  | new => intro pre t post uid e; simp at e
  | step h0 he hs ih => exact Caused.step h0 ih he hs

/-! ### After the end -/

/-- Callbacks of the user come no later than the termination callback. -/
def Quiet (log : List Trace) : Prop := ∀ pre post, log = pre ++ .terminated :: post → ∀ t ∈ post, isCallback t = false

theorem Quiet.before {log l : List Trace} (h : .terminated ∉ log) (hl : Quiet l) : Quiet (log ++ l) := by
  intro pre post e t ht
  rcases List.append_eq_append_iff.1 e with ⟨m, e1, e2⟩ | ⟨m, e1, e2⟩
  · exact hl m post e2 t ht
  · cases m with
    | nil => exact hl [] post (by simpa using e2.symm) t ht
    | cons t' m =>
      simp only [List.cons_append, List.cons.injEq] at e2
      exact absurd (by rw [e1, ← e2.1]; simp) h

theorem Quiet.after {log l : List Trace} (h : Quiet log) (hl : ∀ t ∈ l, isCallback t = false) : Quiet (log ++ l) := by
  intro pre post e t ht
  rcases List.append_eq_append_iff.1 e with ⟨m, e1, e2⟩ | ⟨m, e1, e2⟩
  · exact hl t (by rw [e2]; simp [ht])
  · cases m with
    | nil => exact hl t (by simp only [List.nil_append] at e2; rw [← e2]; simp [ht])
    | cons t' m =>
      simp only [List.cons_append, List.cons.injEq] at e2
      rw [e2.2] at ht
      rcases List.mem_append.1 ht with ht | ht
      · exact h pre m (by rw [e1, ← e2.1]) t ht
      · exact hl t ht

theorem quiet_none {l : List Trace} (h : .terminated ∉ l) : Quiet l := by
  intro pre post e t ht; exact absurd (by rw [e]; simp) h

theorem Quiet.step {a b : Adapter} {v : Version} {e : Event} (hi : Inv a) (h : Quiet a.log) (he : Enabled v a e)
    (hs : Rrpa.step a e = .ok b) : Quiet b.log := by
  have alive : ∀ {l : List Trace}, a.alive = true → Quiet l → Quiet (a.log ++ l) := by
    intro l ha; exact Quiet.before (by rw [hi.ended, ha]; simp)
  cases e with
  | submit kind ok =>
    simp only [Rrpa.step, Adapter.submit] at hs
    split at hs
    · cases hs
    · cases ok <;> (simp at hs; cases hs; exact h.after (by simp [isCallback]))
  | complete uid x =>
    simp only [Rrpa.step, Adapter.complete] at hs
    split at hs
    · cases hs
    · next op ho =>
      split at hs
      · cases hs; exact h.after (by simp [isCallback])
      · split at hs
        · cases hs
        · next hal =>
          cases hs
          show Quiet (a.log ++ [_] ++ [_])
          rw [List.append_assoc]
          refine alive (by simpa using hal) (quiet_none ?_)
          have := (callback_shape op uid x).1
          simp only [List.cons_append, List.nil_append, List.mem_cons, List.not_mem_nil, or_false, reduceCtorEq, false_or]
          exact fun e => this e.symm
  | destroy =>
    simp only [Rrpa.step, Adapter.destroy] at hs
    split at hs
    · cases hs
    · cases hs
      exact h.after (by simp [isCallback])
  | run =>
    simp only [Rrpa.step, Adapter.run] at hs
    split at hs
    · cases hs; exact h
    · cases hs; exact h
    · next rest ht =>
      simp only [Adapter.terminate] at hs
      split at hs
      · cases hs
      · next hal =>
        obtain ⟨m, em, _⟩ := orphan_eq a.incomplete { a with tasks := rest, attached := false, incomplete := [] }
        rw [em] at hs
        cases hs
        show Quiet (a.log ++ orphanLog a.ops a.incomplete ++ [Trace.terminated])
        rw [List.append_assoc]
        have hal : a.alive = true := by
          cases e : a.alive with
          | true => rfl
          | false => rw [e] at hal; simp at hal
        refine alive hal (Quiet.before ?_ ?_)
        · exact (orphanLog_answers a.ops _ [] a.incomplete (by simp) 0).2
        · intro pre post e t ht
          rcases List.cons_eq_append_iff.1 e with ⟨_, e2⟩ | ⟨p', _, e2⟩
          · cases e2; cases ht
          · exact absurd e2 (by simp)
  | news n =>
    simp only [Rrpa.step] at hs
    split at hs
    · cases hs; exact h
    · split at hs
      · cases hs
      · next hal =>
        cases hs
        exact alive (by simpa using hal) (quiet_none (by cases n <;> simp [News.tell]))
  | publish t p =>
    simp only [Rrpa.step] at hs
    split at hs
    · cases hs; exact h
    · split at hs
      · cases hs
      · next hal =>
        cases hs
        exact alive (by simpa using hal) (quiet_none (by simp))

theorem Reachable.quiet {a : Adapter} {v : Version} (h : Reachable v a) : Quiet a.log := by
  induction h with
  | new => exact quiet_none (by simp)
  | step h0 he hs ih => exact Quiet.step h0.inv ih he hs

end Mqtt.Rrpa
