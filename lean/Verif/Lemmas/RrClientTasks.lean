import Verif.Lemmas.RrClientRun

/-! The functions of the request-response client keep the invariant and do not fault: tasks and calls. -/
namespace Mqtt.RrClient

open Mqtt.Rr (Kind Status StatusType Action Acquired Manager matchesType)

theorem Inv.lt {cfg : Config} {strict : Bool} {cur : List Task} {c : Client} (h : Inv cfg strict cur c) {id : Nat} {op : Op}
    (hg : c.ops.get id = some op) : id < c.nextId := by
  have := h.ids id
  unfold IdOk at this
  rw [hg] at this
  exact this.1

theorem perm_eraseIdx {l : List Task} {k : Nat} {t : Task} (h : l[k]? = some t) : l.Perm (t :: l.eraseIdx k) := by
  induction l generalizing k with
  | nil => simp at h
  | cons a l ih =>
    cases k with
    | zero => simp at h; subst h; exact .refl _
    | succ k =>
      simp only [List.getElem?_cons_succ] at h
      exact ((ih h).cons a).trans (.swap _ _ _)

/-- A task is taken from the list. -/
theorem Inv.take {cfg : Config} {strict : Bool} {c : Client} (h : Inv cfg strict [] c) {k : Nat} {t : Task}
    (hk : c.tasks[k]? = some t) : Inv cfg strict [t] { c with tasks := c.tasks.eraseIdx k } := by
  have hp : c.tasks.Perm (t :: c.tasks.eraseIdx k) := perm_eraseIdx hk
  have hcount : ∀ t' : Task, ([t] ++ c.tasks.eraseIdx k).count t' = ([] ++ c.tasks).count t' := fun t' =>
    (hp.count_eq t').symm
  exact { h with
    ids := fun id => (h.ids id).of rfl (hcount _) (hcount _) rfl (fun _ => Iff.rfl) (Nat.le_refl _) (fun x => x) (by simp)
    told := fun s hs => h.told s (hp.mem_iff.2 hs)
    initTask := by rw [hcount]; exact h.initTask
    shutTask := by rw [hcount]; exact h.shutTask }

/-- The task of a status event is over. -/
theorem Inv.endStatus {cfg : Config} {strict : Bool} {s : Status} {c : Client} (h : Inv cfg strict [.status s] c) :
    Inv cfg strict [] c := by
  have hcount : ∀ t : Task, (∀ s, t ≠ .status s) → ([] ++ c.tasks).count t = ([Task.status s] ++ c.tasks).count t := by
    intro t ht
    simp only [List.nil_append, List.singleton_append]
    rw [List.count_cons_of_ne (fun e => ht s e.symm)]
  exact { h with
    ids := fun id => (h.ids id).of rfl (hcount _ (by simp)) (hcount _ (by simp)) rfl (fun _ => Iff.rfl) (Nat.le_refl _)
      (fun x => x) (by simp)
    told := fun s hs => h.told s (List.mem_append.2 (.inr hs))
    initTask := by rw [hcount _ (by simp)]; exact h.initTask
    shutTask := by rw [hcount _ (by simp)]; exact h.shutTask }

theorem initialize_ok {cfg : Config} {strict : Bool} {c : Client} (h : Inv cfg strict [.initialize] c) (env : Env) :
    Inv cfg strict [] (c.initialize env) := by
  have hp : c.phase = .uninitialized := by
    have := h.initTask
    simp only [List.singleton_append, List.count_cons_self] at this
    split at this
    · assumption
    · omega
  have hcount : ∀ t : Task, t ≠ .initialize → ([] ++ c.tasks).count t = ([Task.initialize] ++ c.tasks).count t := by
    intro t ht
    simp only [List.nil_append, List.singleton_append]
    rw [List.count_cons_of_ne (fun e => ht e.symm)]
  have hn : Neutral [Trace.initialized] := by
    intro e he; cases List.mem_singleton.1 he; exact ⟨by simp, fun _ => rfl⟩
  unfold Client.initialize
  simp only [hp, if_true]
  exact { h with
    ids := fun id => (h.ids id).of rfl (hcount _ (by simp)) (hcount _ (by simp))
      (by simp only [completions_append, hn.completions]; rfl) (fun r => (hn.only id).submitted id r)
      (Nat.le_refl _) (fun x => x) (by simp)
    fresh := by
      intro hst _
      exact h.fresh hst (by rw [hp]; simp)
    origin := by
      intro t e hx
      obtain ⟨i, r, a1, a2⟩ := h.origin t e hx
      exact ⟨i, r, by simp [a1], a2⟩
    manager := fun _ => ⟨.new _, rfl⟩
    kinds := fun _ => by intro e he; cases he
    told := fun s hs => h.told s (List.mem_append.2 (.inr hs))
    initTask := by
      have := h.initTask
      simp only [hp, List.singleton_append, List.count_cons_self, if_true] at this
      simp
      omega
    shutTask := by
      have := h.shutTask
      rw [hcount _ (by simp)]
      simp only [hp] at this ⊢
      simpa using this }

theorem failRequest_state {c c' : Client} {id : Nat} {e : Failure} (h : c.failRequest id e = .ok c') :
    ∃ op, c'.ops.get id = some op ∧ op.state = .pendingDestroy := by
  unfold Client.failRequest at h
  split at h
  · cases h
  · rename_i op hg
    split at h
    · cases h
    · split at h
      · rename_i hs; cases h; exact ⟨op, hg, hs⟩
      · rw [releaseOp_eq (op := { op with state := .pendingDestroy }) (by simp)] at h
        cases h
        exact ⟨{ op with state := .pendingDestroy, refs := decrement op.refs }, by simp, rfl⟩

theorem count_cur {cur l : List Task} {t : Task} (h : t ∉ cur) : (cur ++ l).count t = ([] ++ l).count t := by
  rw [List.count_append, List.count_eq_zero.2 h]
  simp

/-- The reference held by the task of a submission is released. -/
theorem endSubmit_ok {cfg : Config} {strict : Bool} {c : Client} {id : Nat} (h : Inv cfg strict [.submit id] c) {op : Op}
    (hg : c.ops.get id = some op) (hs : op.body.kind = .request → op.state = .pendingDestroy) :
    ∃ c', c.releaseOp id = .ok c' ∧ Inv cfg strict [] c' := by
  have hb1 : ∀ r, op.body = .request r → ([Task.submit id] ++ c.tasks).count (.submit id) = 1 ∧
      ([Task.submit id] ++ c.tasks).count (.destroy id) = 0 ∧ op.refs = 1 ∧ completions c.log id = 1 := by
    intro r hb
    obtain ⟨i1, i2, i3, i4, i5⟩ := idOk_request (h.ids id) hg hb
    have h1 : 1 ≤ ([Task.submit id] ++ c.tasks).count (.submit id) := by simp
    rcases i5 with ⟨a1, a2, a3, a4, a5, a6⟩ | ⟨a1, a2, a3, a4, a5⟩ | ⟨a1, a2, a3, a4, a5, a6⟩
    · exact absurd (hs (by rw [hb]; rfl)) a4
    · omega
    · omega
  rw [releaseOp_eq hg]
  refine ⟨_, rfl, ?_⟩
  have hc : ∀ t : Task, t ≠ .submit id → t ≠ .destroy id →
      ([] ++ (c.tasks ++ if op.refs = 1 then [Task.destroy id] else [])).count t = ([Task.submit id] ++ c.tasks).count t := by
    intro t h1 h2
    rw [count_cur (cur := [Task.submit id]) (by simpa using h1)]
    simp only [List.nil_append, List.count_append]
    have : (if op.refs = 1 then [Task.destroy id] else []).count t = 0 := by
      rw [List.count_eq_zero]
      split
      · simpa using h2
      · simp
    omega
  have hsub : ([] ++ (c.tasks ++ if op.refs = 1 then [Task.destroy id] else [])).count (Task.submit id) =
      ([Task.submit id] ++ c.tasks).count (.submit id) - 1 := by
    have : (if op.refs = 1 then [Task.destroy id] else []).count (.submit id) = 0 := by
      rw [List.count_eq_zero]
      split <;> simp
    simp only [List.nil_append, List.count_append, this, List.count_cons_self, List.count_nil]
    omega
  have hdes : ([] ++ (c.tasks ++ if op.refs = 1 then [Task.destroy id] else [])).count (Task.destroy id) =
      ([Task.submit id] ++ c.tasks).count (.destroy id) + if op.refs = 1 then 1 else 0 := by
    have : (if op.refs = 1 then [Task.destroy id] else []).count (.destroy id) = if op.refs = 1 then 1 else 0 := by
      split <;> simp
    rw [count_cur (cur := [Task.submit id]) (by simp)]
    simp only [List.nil_append, List.count_append, this]
  have hids : IdOk strict [] { c with ops := c.ops.set id { op with refs := decrement op.refs }
                                      tasks := c.tasks ++ if op.refs = 1 then [.destroy id] else [] } id := by
    unfold IdOk
    simp only [AMap.get_set_same, hsub, hdes]
    rcases Body.cases op.body with ⟨f, hb⟩ | ⟨r, hb⟩
    · obtain ⟨i1, i2, i3, i4⟩ := idOk_stream (h.ids id) hg hb
      simp only [hb]
      have h1 : 1 ≤ ([Task.submit id] ++ c.tasks).count (.submit id) := by simp
      have i41 := i4.submit
      have i42 := i4.refs
      have i43 := i4.destroy
      have hact := i4.activated (by omega)
      have h2 : ([Task.submit id] ++ c.tasks).count (.submit id) = 1 := by omega
      rw [h2] at i42 ⊢
      refine ⟨i1, fun _ => rfl, i3, by omega, ?_, ?_, by simp, fun _ => hact, i4.none⟩
      · simp only [decrement]
        cases hh : op.held <;> simp_all
      · simp only [decrement]
        cases hh : op.held <;> simp_all
    · obtain ⟨i1, i2, i3, i4, i5⟩ := idOk_request (h.ids id) hg hb
      obtain ⟨b1, b2, b3, b4⟩ := hb1 r hb
      simp only [hb, b1, b2, b3, if_true]
      refine ⟨i1, by simp, i3, i4, .completed rfl ?_ (by simp) b4 (.inl (hs (by rw [hb]; rfl)))⟩
      simp [decrement]
  refine h.change' (op' := { op with refs := decrement op.refs }) (es := []) hg rfl (by simp) (fun i hi => .inl hi)
    (fun t h1 h2 => hc t h2 h1) (by intro j hj hm; simp [hj] at hm) .nil hids ?_
  intro h1 h2 h3 h4
  rcases Body.cases op.body with ⟨f, hb⟩ | ⟨r, hb⟩
  · rw [hb] at h4; cases h4
  · exact h.fresh h1 h2 id h3 op r hg hb

/-- An operation enters the queue. -/
theorem enqueue_ok {cfg : Config} {strict : Bool} {c c' : Client} {id : Nat} (h : Inv cfg strict [.submit id] c) {op : Op}
    (hg : c.ops.get id = some op) (hs : ∀ r, op.body = .request r →
      ([Task.submit id] ++ c.tasks).count (.destroy id) = 0 ∧ op.refs = 2 ∧ completions c.log id = 0)
    (hc' : c' = { c with
      ops := c.ops.set id { op with tracked := true, state := .queued, refs := decrement op.refs }
      timeouts := c'.timeouts
      queue := c.queue ++ [id]
      scheduled := c'.scheduled
      tasks := c.tasks ++ if op.refs = 1 then [.destroy id] else [] })
    (ht : ∀ i ∈ c'.timeouts, i ∈ c.timeouts ∨ i = id ∧ op.body.kind = .request) : Inv cfg strict [] c' := by
  have hsc : 1 ≤ ([Task.submit id] ++ c.tasks).count (.submit id) := by simp
  have hnt : op.tracked = false := by
    have := h.ids id
    unfold IdOk at this
    rw [hg] at this
    have := this.2.1
    cases he : op.tracked with
    | false => rfl
    | true => have := this he; omega
  have hnq : id ∉ c.queue := by
    intro hq
    obtain ⟨o, h1, h2, _⟩ := h.queue id hq
    rw [hg] at h1
    cases h1
    rw [hnt] at h2
    cases h2
  have hni : op.inTables = false := by
    cases he : op.inTables with
    | false => rfl
    | true =>
      have := (h.tables id op hg he).1
      rw [hnt] at this
      cases this
  have ho : c'.ops = c.ops.set id { op with tracked := true, state := .queued, refs := decrement op.refs } := by rw [hc']
  have hq : c'.queue = c.queue ++ [id] := by rw [hc']
  have htk : c'.tasks = c.tasks ++ if op.refs = 1 then [.destroy id] else [] := by rw [hc']
  have hlog : c'.log = c.log := by rw [hc']
  have hnext : c'.nextId = c.nextId := by rw [hc']
  have hph : c'.phase = c.phase := by rw [hc']
  have hget : ∀ j, c'.ops.get j = if j = id then some { op with tracked := true, state := .queued, refs := decrement op.refs }
      else c.ops.get j := by intro j; rw [ho, AMap.get_set]
  have hforth : ∀ j o, c.ops.get j = some o → ∃ o', c'.ops.get j = some o' ∧ o'.body = o.body ∧
      (o.tracked = true → o'.tracked = true) ∧ o'.inTables = o.inTables := by
    intro j o hx
    rw [hget]
    by_cases e : j = id
    · subst e; rw [hg] at hx; cases hx; exact ⟨_, if_pos rfl, rfl, fun _ => rfl, rfl⟩
    · exact ⟨o, by rw [if_neg e]; exact hx, rfl, fun x => x, rfl⟩
  have hk : ∀ k i, Known c k i → Known c' k i := by
    intro k i hx
    have hi : i ≠ id := by
      rintro rfl
      have := (hx.2.2 op hg).2
      rw [hnt] at this
      cases this
    refine ⟨by rw [hnext]; exact hx.1, by rw [hq]; simp [hx.2.1, hi], ?_⟩
    rw [hget, if_neg hi]
    exact hx.2.2
  have hc : ∀ t : Task, t ≠ .submit id → t ≠ .destroy id →
      ([] ++ c'.tasks).count t = ([Task.submit id] ++ c.tasks).count t := by
    intro t h1 h2
    rw [count_cur (cur := [Task.submit id]) (by simpa using h1), htk]
    simp only [List.nil_append, List.count_append]
    have : (if op.refs = 1 then [Task.destroy id] else []).count t = 0 := by
      rw [List.count_eq_zero]
      split
      · simpa using h2
      · simp
    omega
  have hsub : ([] ++ c'.tasks).count (Task.submit id) = ([Task.submit id] ++ c.tasks).count (.submit id) - 1 := by
    have : (if op.refs = 1 then [Task.destroy id] else []).count (Task.submit id) = 0 := by
      rw [List.count_eq_zero]
      split <;> simp
    simp only [htk, List.nil_append, List.count_append, this, List.count_cons_self, List.count_nil]
    omega
  have hdes : ([] ++ c'.tasks).count (Task.destroy id) =
      ([Task.submit id] ++ c.tasks).count (.destroy id) + if op.refs = 1 then 1 else 0 := by
    have : (if op.refs = 1 then [Task.destroy id] else []).count (Task.destroy id) = if op.refs = 1 then 1 else 0 := by
      split <;> simp
    rw [count_cur (cur := [Task.submit id]) (by simp)]
    simp only [htk, List.nil_append, List.count_append, this]
  refine ⟨?_, ?_, ?_, ?_, ?_, ?_, ?_, ?_, ?_, ?_, ?_, ?_, ?_, ?_, ?_, ?_, ?_, ?_, ?_, ?_, ?_, ?_, ?_⟩
  · intro j
    by_cases hj : j = id
    · subst hj
      unfold IdOk
      rw [hget, if_pos rfl]
      simp only [hsub, hdes, hlog, hnext]
      rcases Body.cases op.body with ⟨f, hb⟩ | ⟨r, hb⟩
      · obtain ⟨i1, i2, i3, i4⟩ := idOk_stream (h.ids j) hg hb
        simp only [hb]
        have i41 := i4.submit
        have i42 := i4.refs
        have i43 := i4.destroy
        have hact := i4.activated (by omega)
        have h2 : ([Task.submit j] ++ c.tasks).count (.submit j) = 1 := by omega
        rw [h2] at i42 ⊢
        refine ⟨i1, fun _ => rfl, i3, by omega, ?_, ?_, by simp, fun _ => hact, i4.none⟩
        · simp only [i42]
          cases op.held <;> simp [decrement]
        · rw [i43]
          simp only [i42]
          cases op.held <;> simp [decrement]
      · obtain ⟨i1, i2, i3, i4, i5⟩ := idOk_request (h.ids j) hg hb
        obtain ⟨b1, b2, b3⟩ := hs r hb
        have h2 : ([Task.submit j] ++ c.tasks).count (.submit j) = 1 := by
          rcases i5 with ⟨a1, a2, a3, a4, a5, a6⟩ | ⟨a1, a2, a3, a4, a5⟩ | ⟨a1, a2, a3, a4, a5, a6⟩ <;> omega
        simp only [hb, b1, b2, h2]
        refine ⟨i1, by simp, i3, i4, .waiting (by simp) (by simp) ?_ (by simp) b3 (by simp)⟩
        simp [decrement]
    · refine (h.ids j).of ?_ (hc _ (by simp [hj]) (by simp)) (hc _ (by simp) (by simp [hj])) (by rw [hlog])
        (fun _ => by rw [hlog]) (Nat.le_of_eq hnext.symm) (by rw [hq]; simp [hj]) (by simp [hj])
      rw [hget, if_neg hj]
  · rw [ho]; exact AMap.nodup_set h.nodup _ _
  · rw [hq, List.nodup_append]
    refine ⟨h.queueNodup, by simp, ?_⟩
    intro a ha b hb
    cases List.mem_singleton.1 hb
    exact fun e => hnq (e ▸ ha)
  · rw [hq]
    intro j hj
    rcases List.mem_append.1 hj with hj | hj
    · obtain ⟨o, a1, a2, a3⟩ := h.queue j hj
      obtain ⟨o', b1, b2, b3, b4⟩ := hforth j o a1
      exact ⟨o', b1, b3 a2, by rw [b4]; exact a3⟩
    · cases List.mem_singleton.1 hj
      exact ⟨{ op with tracked := true, state := .queued, refs := decrement op.refs }, by rw [hget, if_pos rfl], rfl, hni⟩
  · rw [hq, hph]
    intro h1 h2 j hj o r hx hb
    rw [hget] at hx
    split at hx
    · cases hx; simp
    · rename_i hne
      rcases List.mem_append.1 hj with hj | hj
      · exact h.fresh h1 h2 j hj o r hx hb
      · exact absurd (List.mem_singleton.1 hj) hne
  · intro j hj
    rcases ht j hj with hj | ⟨rfl, hb⟩
    · obtain ⟨o, r, a1, a2, a3⟩ := h.timeouts j hj
      obtain ⟨o', b1, b2, b3, b4⟩ := hforth j o a1
      exact ⟨o', r, b1, by rw [b2]; exact a2, b3 a3⟩
    · rcases Body.cases op.body with ⟨f, hb'⟩ | ⟨r, hb'⟩
      · rw [hb'] at hb; cases hb
      · exact ⟨{ op with tracked := true, state := .queued, refs := decrement op.refs }, r, by rw [hget, if_pos rfl], hb', rfl⟩
  · intro t j hj
    rw [show c'.tokens = c.tokens by rw [hc']] at hj
    obtain ⟨o, r, a1, a2, a3, a4⟩ := h.tokens t j hj
    obtain ⟨o', b1, b2, b3, b4⟩ := hforth j o a1
    exact ⟨o', r, b1, by rw [b2]; exact a2, a3, by rw [b4]; exact a4⟩
  · intro j o' r hx hb hin
    rw [show c'.tokens = c.tokens by rw [hc']]
    rw [hget] at hx
    split at hx
    · cases hx
      simp only at hin
      rw [hni] at hin
      cases hin
    · exact h.tokens' j o' r hx hb hin
  · rw [show c'.tokens = c.tokens by rw [hc']]; exact h.tokensNodup
  · intro j o' hx hin
    rw [hget] at hx
    split at hx
    · cases hx
      simp only at hin
      rw [hni] at hin
      cases hin
    · rename_i hne
      obtain ⟨a1, a2⟩ := h.tables j o' hx hin
      exact ⟨a1, by rw [hq]; simp [a2, hne]⟩
  · rw [show c'.streams = c.streams by rw [hc']]
    intro e he i hi
    obtain ⟨o, a1, a2, a3⟩ := h.streams e he i hi
    obtain ⟨o', b1, b2, b3, b4⟩ := hforth i o a1
    exact ⟨o', b1, by rw [b2]; exact a2, by rw [b4]; exact a3⟩
  · rw [show c'.wildcards = c.wildcards by rw [hc']]
    intro e he i hi
    obtain ⟨o, a1, a2, a3⟩ := h.wildcards e he i hi
    obtain ⟨o', b1, b2, b3, b4⟩ := hforth i o a1
    exact ⟨o', b1, by rw [b2]; exact a2, by rw [b4]; exact a3⟩
  · rw [show c'.streams = c.streams by rw [hc']]; exact h.streamsNodup
  · rw [show c'.publishes = c.publishes by rw [hc']]; exact fun i hi => hk _ _ (h.publishes i hi)
  · rw [show c'.paths = c.paths by rw [hc']]; exact h.pathsNodup
  · intro t
    rw [show c'.paths = c.paths by rw [hc'], ho, h.paths t]
    have := regs_set h.nodup (op' := { op with tracked := true, state := .queued, refs := decrement op.refs }) hg t
    have hr : Op.regs t { op with tracked := true, state := .queued, refs := decrement op.refs } = op.regs t := rfl
    omega
  · rw [show c'.paths = c.paths by rw [hc']]; exact h.pathsPos
  · rw [show c'.paths = c.paths by rw [hc'], hlog]; exact h.origin
  · rw [hph, show c'.manager = c.manager by rw [hc']]; exact h.manager
  · rw [hph, show c'.manager = c.manager by rw [hc']]; exact fun hp => Sound.mono (h.kinds hp) hk
  · intro s hs
    refine Told.mono (h.told s ?_) hk
    rw [← List.count_pos_iff, ← hc _ (by simp) (by simp), List.count_pos_iff]
    exact hs
  · rw [hc _ (by simp) (by simp), hph]; exact h.initTask
  · rw [hc _ (by simp) (by simp), hph, show c'.held = c.held by rw [hc']]; exact h.shutTask

theorem wake_eq (c : Client) (now : Nat) : c.wake now = { c with scheduled := (c.wake now).scheduled } := by
  unfold Client.wake
  split
  · rfl
  · split <;> rfl

theorem submit_ok {cfg : Config} {strict : Bool} {c : Client} {id : Nat} (h : Inv cfg strict [.submit id] c)
    (hs : ∀ op r, c.ops.get id = some op → op.body = .request r →
      ([Task.submit id] ++ c.tasks).count (.destroy id) = 0 ∧ op.refs = 2 ∧ completions c.log id = 0) (now : Nat) :
    ∃ c', c.submit now id = .ok c' ∧ Inv cfg strict [] c' := by
  have hsc : 1 ≤ ([Task.submit id] ++ c.tasks).count (.submit id) := by simp
  unfold Client.submit
  cases hg : c.ops.get id with
  | none =>
    have := h.ids id
    unfold IdOk at this
    rw [hg] at this
    have := this.1
    omega
  | some op =>
    simp only
    split
    · rename_i hp
      obtain ⟨c1, a1, a2, a3⟩ := failOp_ok h hg (.inr (by simp)) (fun _ hx => absurd hp hx) .shutDown
      simp only [a1]
      obtain ⟨o', b1, b2⟩ := a3.forth hg
      refine endSubmit_ok a2 b1 ?_
      intro hk
      rw [(Op.view_eq b2).1] at hk
      simp only [Client.failOp, hg] at a1
      rcases Body.cases op.body with ⟨f, hb⟩ | ⟨r, hb⟩
      · rw [hb] at hk; cases hk
      · rw [hb] at a1
        simp only at a1
        obtain ⟨o2, d1, d2⟩ := failRequest_state a1
        rw [b1] at d1
        cases d1
        exact d2
    · rename_i hp
      rw [wake_eq, releaseOp_eq (op := { op with tracked := true, state := .queued }) (by simp)]
      simp only [AMap.set_set]
      refine ⟨_, rfl, enqueue_ok h hg (fun r hb => hs op r hg hb) rfl ?_⟩
      simp only
      intro i hi
      rcases Body.cases op.body with ⟨f, hb⟩ | ⟨r, hb⟩
      · rw [hb] at hi; exact .inl hi
      · rw [hb] at hi
        rcases List.mem_append.1 hi with hi | hi
        · exact .inl hi
        · exact .inr ⟨List.mem_singleton.1 hi, by rw [hb]; rfl⟩

end Mqtt.RrClient
