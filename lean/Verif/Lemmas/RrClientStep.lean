import Verif.Lemmas.RrClientTasks

/-! Every event keeps the invariant of the request-response client and does not fault. -/
namespace Mqtt.RrClient

open Mqtt.Rr (Kind Status StatusType Action Acquired Manager matchesType)

/-- A new operation. -/
theorem create_ok {cfg : Config} {strict : Bool} {c c' : Client} (h : Inv cfg strict [] c) {op : Op} {l : List Task}
    {es : List Trace} (h1 : op.tracked = false) (h2 : op.inTables = false)
    (hl : ∀ t ∈ l, t = .submit c.nextId) (he : ∀ e ∈ es, (∀ i r, e = .submitted i r → i = c.nextId) ∧ ∀ j, isCompletion j e = false)
    (hc' : c' = { c with nextId := c.nextId + 1, ops := c.ops.set c.nextId op, tasks := c.tasks ++ l, log := c.log ++ es })
    (hid : IdOk strict [] c' c.nextId) : Inv cfg strict [] c' := by
  have hnone : c.ops.get c.nextId = none := by
    cases hg : c.ops.get c.nextId with
    | none => rfl
    | some o => exact absurd (h.lt hg) (Nat.lt_irrefl _)
  have ho : c'.ops = c.ops.set c.nextId op := by rw [hc']
  have hq : c'.queue = c.queue := by rw [hc']
  have htk : c'.tasks = c.tasks ++ l := by rw [hc']
  have hlog : c'.log = c.log ++ es := by rw [hc']
  have hnext : c'.nextId = c.nextId + 1 := by rw [hc']
  have hph : c'.phase = c.phase := by rw [hc']
  have hget : ∀ j, c'.ops.get j = if j = c.nextId then some op else c.ops.get j := by intro j; rw [ho, AMap.get_set]
  have hforth : ∀ j o, c.ops.get j = some o → c'.ops.get j = some o := by
    intro j o hx
    rw [hget, if_neg]
    · exact hx
    · intro e; rw [e, hnone] at hx; cases hx
  have hk : ∀ k i, Known c k i → Known c' k i := by
    intro k i hx
    refine ⟨by rw [hnext]; exact Nat.lt_succ_of_lt hx.1, by rw [hq]; exact hx.2.1, ?_⟩
    rw [hget, if_neg (Nat.ne_of_lt hx.1)]
    exact hx.2.2
  have hcount : ∀ t : Task, t ≠ .submit c.nextId → ([] ++ c'.tasks).count t = ([] ++ c.tasks).count t := by
    intro t hne
    have : l.count t = 0 := by
      rw [List.count_eq_zero]
      exact fun hm => hne (hl t hm)
    rw [htk]
    simp only [List.count_append, this]
    omega
  have hsub : ∀ j, j ≠ c.nextId → ∀ r, Trace.submitted j r ∈ c'.log ↔ Trace.submitted j r ∈ c.log := by
    intro j hj r
    rw [hlog, List.mem_append]
    constructor
    · rintro (hx | hx)
      · exact hx
      · exact absurd ((he _ hx).1 j r rfl) hj
    · exact .inl
  have hcomp : ∀ j, completions c'.log j = completions c.log j := by
    intro j
    have : completions es j = 0 := by
      unfold completions
      rw [List.countP_eq_zero]
      intro e hx
      rw [(he e hx).2 j]
      simp
    rw [hlog, completions_append, this]
    rfl
  refine ⟨?_, ?_, ?_, ?_, ?_, ?_, ?_, ?_, ?_, ?_, ?_, ?_, ?_, ?_, ?_, ?_, ?_, ?_, ?_, ?_, ?_, ?_, ?_⟩
  · intro j
    by_cases hj : j = c.nextId
    · rw [hj]; exact hid
    · refine (h.ids j).of ?_ (hcount _ (by simp [hj])) (hcount _ (by simp)) (hcomp j) (hsub j hj)
        (by rw [hnext]; exact Nat.le_succ _) (by rw [hq]; exact fun x => x) (fun x => x)
      rw [hget, if_neg hj]
  · rw [ho]; exact AMap.nodup_set h.nodup _ _
  · rw [hq]; exact h.queueNodup
  · rw [hq]
    intro j hj
    obtain ⟨o, a1, a2⟩ := h.queue j hj
    exact ⟨o, hforth j o a1, a2⟩
  · rw [hq, hph]
    intro b1 b2 j hj o r hx hb
    obtain ⟨o', a1, a2⟩ := h.queue j hj
    rw [hforth j o' a1] at hx
    cases hx
    exact h.fresh b1 b2 j hj o r a1 hb
  · rw [show c'.timeouts = c.timeouts by rw [hc']]
    intro j hj
    obtain ⟨o, r, a1, a2⟩ := h.timeouts j hj
    exact ⟨o, r, hforth j o a1, a2⟩
  · rw [show c'.tokens = c.tokens by rw [hc']]
    intro t j hj
    obtain ⟨o, r, a1, a2⟩ := h.tokens t j hj
    exact ⟨o, r, hforth j o a1, a2⟩
  · rw [show c'.tokens = c.tokens by rw [hc']]
    intro j o r hx hb hin
    rw [hget] at hx
    split at hx
    · cases hx; rw [h2] at hin; cases hin
    · exact h.tokens' j o r hx hb hin
  · rw [show c'.tokens = c.tokens by rw [hc']]; exact h.tokensNodup
  · rw [hq]
    intro j o hx hin
    rw [hget] at hx
    split at hx
    · cases hx; rw [h2] at hin; cases hin
    · exact h.tables j o hx hin
  · rw [show c'.streams = c.streams by rw [hc']]
    intro e he i hi
    obtain ⟨o, a1, a2⟩ := h.streams e he i hi
    exact ⟨o, hforth i o a1, a2⟩
  · rw [show c'.wildcards = c.wildcards by rw [hc']]
    intro e he i hi
    obtain ⟨o, a1, a2⟩ := h.wildcards e he i hi
    exact ⟨o, hforth i o a1, a2⟩
  · rw [show c'.streams = c.streams by rw [hc']]; exact h.streamsNodup
  · rw [show c'.publishes = c.publishes by rw [hc']]; exact fun i hi => hk _ _ (h.publishes i hi)
  · rw [show c'.paths = c.paths by rw [hc']]; exact h.pathsNodup
  · intro t
    rw [show c'.paths = c.paths by rw [hc'], ho, h.paths t, regs_new hnone]
    have : op.regs t = 0 := by unfold Op.regs; rw [h2]; rfl
    omega
  · rw [show c'.paths = c.paths by rw [hc']]; exact h.pathsPos
  · rw [show c'.paths = c.paths by rw [hc'], hlog]
    intro t e hx
    obtain ⟨i, r, a1, a2⟩ := h.origin t e hx
    exact ⟨i, r, by simp [a1], a2⟩
  · rw [hph, show c'.manager = c.manager by rw [hc']]; exact h.manager
  · rw [hph, show c'.manager = c.manager by rw [hc']]; exact fun hp => Sound.mono (h.kinds hp) hk
  · intro s hs
    refine Told.mono (h.told s ?_) hk
    rw [← List.count_pos_iff, ← hcount _ (by simp), List.count_pos_iff]
    exact hs
  · rw [hcount _ (by simp), hph]; exact h.initTask
  · rw [hcount _ (by simp), hph, show c'.held = c.held by rw [hc']]; exact h.shutTask

/-- Nothing is known of an id that has not been given out. -/
theorem Inv.unused {cfg : Config} {strict : Bool} {c : Client} (h : Inv cfg strict [] c) :
    c.tasks.count (.submit c.nextId) = 0 ∧ c.tasks.count (.destroy c.nextId) = 0 ∧ completions c.log c.nextId = 0 ∧
      ¬ wasSubmitted c.log c.nextId := by
  have hi := h.ids c.nextId
  unfold IdOk at hi
  cases hg : c.ops.get c.nextId with
  | some o => exact absurd (h.lt hg) (Nat.lt_irrefl _)
  | none =>
    rw [hg] at hi
    obtain ⟨a1, a2, a3⟩ := hi
    obtain ⟨b1, b2⟩ := a3.fresh (Nat.le_refl _)
    exact ⟨a1, a2, b1, b2⟩

theorem submitRequest_ok {cfg : Config} {strict : Bool} {c : Client} (h : Inv cfg strict [] c) (now : Nat) (r : Request) :
    Inv cfg strict [] (c.submitRequest cfg now r) := by
  obtain ⟨u1, u2, u3, u4⟩ := h.unused
  unfold Client.submitRequest
  split
  · refine create_ok h rfl rfl (l := [.submit c.nextId]) (es := [.submitted c.nextId r]) (by simp) (by simp [isCompletion]) rfl ?_
    have hcomp : completions (c.log ++ [.submitted c.nextId r]) c.nextId = 0 := by
      rw [completions_append, u3]; rfl
    unfold IdOk
    simp only [AMap.get_set_same, hcomp, List.nil_append, List.count_append, u1, u2]
    refine ⟨by omega, by simp, by simp, ?_, .waiting (by simp) (by simp) (by simp) (by simp) rfl (by simp)⟩
    intro r' hr'
    rcases List.mem_append.1 hr' with hx | hx
    · exact absurd ⟨r', hx⟩ u4
    · cases List.mem_singleton.1 hx; rfl
  · exact h

theorem openStream_ok {cfg : Config} {strict : Bool} {c : Client} (h : Inv cfg strict [] c) (f : Bytes) :
    Inv cfg strict [] (c.openStream f) := by
  obtain ⟨u1, u2, u3, u4⟩ := h.unused
  unfold Client.openStream
  split
  · refine create_ok h (op := { body := .stream f, timeout := never, pendingSubs := 1, held := true, refs := 1 }) rfl rfl (l := []) (es := [.opened c.nextId f]) (by simp) (by simp [isCompletion]) (by simp) ?_
    have hcomp : completions (c.log ++ [.opened c.nextId f]) c.nextId = 0 := by
      rw [completions_append, u3]; rfl
    unfold IdOk
    simp only [AMap.get_set_same, hcomp, List.nil_append, u1, u2]
    refine ⟨by omega, by simp, ?_, ⟨by simp, by simp, by simp, by simp, by simp, rfl⟩⟩
    rintro ⟨r', hx⟩
    rcases List.mem_append.1 hx with hx | hx
    · exact u4 ⟨r', hx⟩
    · cases List.mem_singleton.1 hx
  · exact h

theorem activate_ok {cfg : Config} {strict : Bool} {c : Client} (h : Inv cfg strict [] c) {id : Nat} {op : Op} {f : Bytes}
    (hg : c.ops.get id = some op) (hb : op.body = .stream f) (hh : op.held = true) :
    ∃ c', c.activate id = .ok c' ∧ Inv cfg strict [] c' := by
  simp only [Client.activate, hg]
  split
  · exact ⟨c, rfl, h⟩
  · rename_i ha
    obtain ⟨i1, i2, i3, i4⟩ := idOk_stream (h.ids id) hg hb
    refine ⟨_, rfl, h.change (op' := { op with activated := true, refs := op.refs + 1 }) (l := [.submit id]) (es := []) hg rfl
      (by simp) (fun i hi => .inl hi) (by simp) .nil ?_ ?_⟩
    · have hs0 : c.tasks.count (.submit id) = 0 := by
        have a1 := i4.submit
        have a2 := i4.activated
        simp only [List.nil_append] at a1 a2
        by_cases e : c.tasks.count (.submit id) = 1
        · exact absurd (a2 e) ha
        · omega
      have hr : op.refs = 1 := by
        have := i4.refs
        simp only [List.nil_append, hs0, hh, if_true] at this
        omega
      have hd := i4.destroy
      rw [hr] at hd
      have hnt : op.tracked ≠ true := fun e => ha (i4.tracked e)
      unfold IdOk
      simp only [AMap.get_set_same, hb, hr]
      simp only [List.nil_append, List.count_append, hs0] at hd ⊢
      refine ⟨i1, fun e => absurd e hnt, i3, ⟨by simp, ?_, ?_, by simp, by simp, i4.none⟩⟩
      · simp [hh]
      · simp [hd]
    · intro _ _ _ hk
      rw [hb] at hk
      cases hk

theorem close_ok {cfg : Config} {strict : Bool} {c : Client} (h : Inv cfg strict [] c) {id : Nat} {op : Op} {f : Bytes}
    (hg : c.ops.get id = some op) (hb : op.body = .stream f) (hh : op.held = true) :
    ∃ c', c.close id = .ok c' ∧ Inv cfg strict [] c' := by
  simp only [Client.close, hg]
  rw [releaseOp_eq (op := { op with held := false }) (by simp)]
  simp only [AMap.set_set]
  obtain ⟨i1, i2, i3, i4⟩ := idOk_stream (h.ids id) hg hb
  have he : OnlyAbout id [Trace.closed id] := by
    intro e he; cases List.mem_singleton.1 he; exact ⟨by simp, fun _ _ => rfl⟩
  have hl : ∀ t ∈ (if op.refs = 1 then [Task.destroy id] else []), t = .destroy id := by
    intro t ht
    split at ht
    · simpa using ht
    · cases ht
  refine ⟨_, rfl, h.change (op' := { op with held := false, refs := decrement op.refs })
    (l := if op.refs = 1 then [.destroy id] else []) (es := [.closed id]) hg rfl rfl (fun i hi => .inl hi)
    (fun t ht => .inl (hl t ht)) he ?_ ?_⟩
  · have hr := i4.refs
    have hd := i4.destroy
    simp only [hh, if_true, List.nil_append] at hr hd
    rw [if_neg (by omega)] at hd
    have hcomp : completions (c.log ++ [.closed id]) id = completions c.log id := by
      rw [completions_append]; rfl
    have hds : ∀ p : Prop, [Decidable p] → (if p then [Task.destroy id] else []).count (Task.destroy id) = if p then 1 else 0 := by
      intro p _; split <;> simp
    unfold IdOk
    simp only [AMap.get_set_same, hb, hcomp, submit_count hl, he.wasSubmitted]
    refine ⟨i1, i2, i3, ⟨i4.submit, ?_, ?_, i4.activated, i4.tracked, i4.none⟩⟩
    · show decrement op.refs = _ + 0
      rw [decrement, if_neg (by omega), List.nil_append]
      omega
    · show _ = if decrement op.refs = 0 then 1 else 0
      simp only [List.nil_append, List.count_append, hds, hd]
      have hdec : decrement op.refs = op.refs - 1 := by rw [decrement, if_neg (by omega)]
      rw [hdec]
      by_cases e : op.refs = 1
      · rw [if_pos e, if_pos (by omega)]
      · rw [if_neg e, if_neg (by omega)]
  · intro _ _ _ hk
    rw [hb] at hk
    cases hk

theorem release_ok {cfg : Config} {strict : Bool} {c : Client} (h : Inv cfg strict [] c) (hh : c.held = true) :
    Inv cfg strict [] { c with held := false, tasks := c.tasks ++ [.shutdown] } := by
  have hcount : ∀ t : Task, t ≠ .shutdown → ([] ++ (c.tasks ++ [Task.shutdown])).count t = ([] ++ c.tasks).count t := by
    intro t ht
    simp only [List.nil_append, List.count_append]
    rw [List.count_eq_zero.2 (show t ∉ [Task.shutdown] by simpa using ht)]
    rfl
  exact { h with
    ids := fun id => (h.ids id).of rfl (hcount _ (by simp)) (hcount _ (by simp)) rfl (fun _ => Iff.rfl) (Nat.le_refl _)
      (fun x => x) (by simp)
    told := fun s hs => h.told s (by simpa using hs)
    initTask := by rw [hcount _ (by simp)]; exact h.initTask
    shutTask := by
      have := h.shutTask
      simp only [hh, List.nil_append, if_true, List.count_append] at this ⊢
      simp
      omega }

theorem dropFrom_mem {m : AMap Bytes (List Nat)} {id : Nat} {e : Bytes × List Nat} (he : e ∈ dropFrom m id) {i : Nat}
    (hi : i ∈ e.2) : i ≠ id ∧ ∃ ids, (e.1, ids) ∈ m ∧ i ∈ ids := by
  unfold dropFrom at he
  obtain ⟨e0, h0, rfl⟩ := List.mem_map.1 he
  obtain ⟨h1, h2⟩ := List.mem_filter.1 hi
  exact ⟨by simpa using h2, e0.2, h0, h1⟩

theorem dropFrom_nodup {m : AMap Bytes (List Nat)} (h : m.Nodup) (id : Nat) : AMap.Nodup (dropFrom m id) := by
  unfold AMap.Nodup AMap.keys dropFrom at *
  rw [List.map_map]
  exact h

/-- The operation leaves the lists. -/
theorem Inv.leave {cfg : Config} {strict : Bool} {cur : List Task} {c : Client} (h : Inv cfg strict cur c) (id : Nat) :
    Inv cfg strict cur { c with
      timeouts := c.timeouts.filter (· != id)
      queue := c.queue.filter (· != id)
      streams := dropFrom c.streams id
      wildcards := dropFrom c.wildcards id } := by
  have h1 := h.pop (q := c.queue.filter (· != id)) List.filter_sublist
  exact { h1 with
    ids := fun j => (h1.ids j).of rfl rfl rfl rfl (fun _ => Iff.rfl) (Nat.le_refl _) (fun x => x) (fun x => x)
    timeouts := fun i hi => h.timeouts i (List.mem_filter.1 hi).1
    streams := by
      intro e he i hi
      obtain ⟨_, ids, a1, a2⟩ := dropFrom_mem he hi
      exact h.streams _ a1 i a2
    wildcards := by
      intro e he i hi
      obtain ⟨_, ids, a1, a2⟩ := dropFrom_mem he hi
      exact h.wildcards _ a1 i a2
    streamsNodup := dropFrom_nodup h.streamsNodup id }

/-- The operation is freed. -/
theorem Inv.free {cfg : Config} {strict : Bool} {c c' : Client} {id : Nat} (h : Inv cfg strict [.destroy id] c) {op : Op}
    (hg : c.ops.get id = some op) (h1 : id ∉ c.timeouts) (h2 : id ∉ c.queue) (h3 : ∀ e ∈ c.streams, id ∉ e.2)
    (h4 : ∀ e ∈ c.wildcards, id ∉ e.2) {es : List Trace} (hes : Neutral es)
    (hc' : c' = { c.removeFromTables op with ops := c.ops.del id, log := c.log ++ es }) : Inv cfg strict [] c' := by
  have ho : c'.ops = c.ops.del id := by rw [hc']
  have hlog : c'.log = c.log ++ es := by rw [hc']
  have hsame : c'.queue = c.queue ∧ c'.tasks = c.tasks ∧ c'.nextId = c.nextId ∧ c'.phase = c.phase ∧
      c'.timeouts = c.timeouts ∧ c'.publishes = c.publishes ∧ c'.manager = c.manager ∧ c'.held = c.held ∧
      c'.streams = c.streams ∧ c'.wildcards = c.wildcards := by
    rw [hc']
    unfold Client.removeFromTables
    cases op.body with
    | stream f => exact ⟨rfl, rfl, rfl, rfl, rfl, rfl, rfl, rfl, rfl, rfl⟩
    | request r => simp only; split <;> exact ⟨rfl, rfl, rfl, rfl, rfl, rfl, rfl, rfl, rfl, rfl⟩
  obtain ⟨eq1, eq2, eq3, eq4, eq5, eq6, eq7, eq8, eq9, eq10⟩ := hsame
  have hin : ∀ r, op.body = .request r → op.inTables = true →
      c'.tokens = c.tokens.del r.token ∧ c'.paths = removePaths r.paths c.paths := by
    intro r hb hi
    rw [hc']
    unfold Client.removeFromTables
    rw [hb]
    simp [hi]
  have hout : (op.inTables = false ∨ op.body.kind = .stream) → c'.tokens = c.tokens ∧ c'.paths = c.paths := by
    intro hi
    rw [hc']
    unfold Client.removeFromTables
    rcases Body.cases op.body with ⟨f, hb⟩ | ⟨r, hb⟩
    · rw [hb]; exact ⟨rfl, rfl⟩
    · rw [hb] at hi ⊢
      rcases hi with hi | hi
      · simp [hi]
      · cases hi
  have hcase : (∃ r, op.body = .request r ∧ op.inTables = true) ∨ op.inTables = false ∨ op.body.kind = .stream := by
    rcases Body.cases op.body with ⟨f, hb⟩ | ⟨r, hb⟩
    · exact .inr (.inr (by rw [hb]; rfl))
    · cases hi : op.inTables with
      | true => exact .inl ⟨r, hb, rfl⟩
      | false => exact .inr (.inl rfl)
  have hget : ∀ j, c'.ops.get j = if j = id then none else c.ops.get j := by intro j; rw [ho, AMap.get_del]
  have hforth : ∀ j o, j ≠ id → c.ops.get j = some o → c'.ops.get j = some o := by
    intro j o hj hx
    rw [hget, if_neg hj]
    exact hx
  have hback : ∀ j o, c'.ops.get j = some o → j ≠ id ∧ c.ops.get j = some o := by
    intro j o hx
    rw [hget] at hx
    split at hx
    · cases hx
    · rename_i hj; exact ⟨hj, hx⟩
  have hk : ∀ k i, Known c k i → Known c' k i := fun k i hx =>
    ⟨by rw [eq3]; exact hx.1, by rw [eq1]; exact hx.2.1, fun o ho => hx.2.2 o (hback i o ho).2⟩
  have hcount : ∀ t : Task, t ≠ .destroy id → ([] ++ c'.tasks).count t = ([Task.destroy id] ++ c.tasks).count t := by
    intro t ht
    rw [count_cur (cur := [Task.destroy id]) (by simpa using ht), eq2]
  have hcomp : ∀ j, completions c'.log j = completions c.log j := by
    intro j; rw [hlog, completions_append, hes.completions]; rfl
  have hdc : 1 ≤ ([Task.destroy id] ++ c.tasks).count (.destroy id) := by simp
  have hdc' : ([] ++ c'.tasks).count (Task.destroy id) = ([Task.destroy id] ++ c.tasks).count (.destroy id) - 1 := by
    rw [eq2]; simp
  refine ⟨?_, ?_, ?_, ?_, ?_, ?_, ?_, ?_, ?_, ?_, ?_, ?_, ?_, ?_, ?_, ?_, ?_, ?_, ?_, ?_, ?_, ?_, ?_⟩
  · intro j
    by_cases hj : j = id
    · subst hj
      unfold IdOk
      rw [hget, if_pos rfl]
      simp only [hdc', hcount (.submit j) (by simp)]
      rcases Body.cases op.body with ⟨f, hb⟩ | ⟨r, hb⟩
      · obtain ⟨i1, i2, i3, i4⟩ := idOk_stream (h.ids j) hg hb
        have hr : op.refs = 0 := by
          have := i4.destroy
          split at this
          · assumption
          · omega
        have hd := i4.destroy
        rw [if_pos hr] at hd
        have hs := i4.refs
        have hn := i4.none
        have hw : ¬ wasSubmitted c'.log j := by rw [hlog, (hes.only j).wasSubmitted]; exact i3
        refine ⟨by omega, by omega, ⟨fun hx => absurd hx hw, ?_, ?_, ?_, ?_⟩⟩
        · rw [hcomp, hn]; omega
        · rw [hcomp, hn]; omega
        · rw [hcomp, hn]; omega
        · rw [eq3]; omega
      · obtain ⟨i1, i2, i3, i4, i5⟩ := idOk_request (h.ids j) hg hb
        have hw : wasSubmitted c'.log j := by rw [hlog, (hes.only j).wasSubmitted]; exact ⟨r, i3⟩
        have key : ([Task.destroy j] ++ c.tasks).count (.submit j) = 0 ∧ ([Task.destroy j] ++ c.tasks).count (.destroy j) = 1 ∧
            1 ≤ completions c.log j ∧ completions c.log j ≤ 2 ∧ (strict = true → completions c.log j ≤ 1) := by
          rcases i5 with ⟨a1, a2, a3, a4, a5, a6⟩ | ⟨a1, a2, a3, a4, a5⟩ | ⟨a1, a2, a3, a4, a5, a6⟩
          · omega
          · exact ⟨by omega, by omega, by omega, by omega, fun _ => by omega⟩
          · exact ⟨a3, a2, by omega, by omega, fun e => by rw [a1] at e; cases e⟩
        obtain ⟨k1, k2, k3, k4, k5⟩ := key
        refine ⟨k1, by omega, ⟨fun _ => by rw [hcomp]; exact k3, by rw [hcomp]; exact k4, fun e => by rw [hcomp]; exact k5 e,
          fun _ => hw, ?_⟩⟩
        rw [eq3]
        omega
    · refine (h.ids j).of ?_ (hcount _ (by simp)) (hcount _ (by simp [hj])) (hcomp j) ?_
        (Nat.le_of_eq eq3.symm) (by rw [eq1]; exact fun x => x) (by simp)
      · rw [hget, if_neg hj]
      · intro r; rw [hlog]; exact (hes.only j).submitted j r
  · rw [ho]; exact AMap.nodup_del h.nodup _
  · rw [eq1]; exact h.queueNodup
  · rw [eq1]
    intro j hj
    obtain ⟨o, a1, a2⟩ := h.queue j hj
    exact ⟨o, hforth j o (fun e => h2 (e ▸ hj)) a1, a2⟩
  · rw [eq1, eq4]
    exact fun b1 b2 j hj o r hx => h.fresh b1 b2 j hj o r (hback j o hx).2
  · rw [eq5]
    intro j hj
    obtain ⟨o, r, a1, a2⟩ := h.timeouts j hj
    exact ⟨o, r, hforth j o (fun e => h1 (e ▸ hj)) a1, a2⟩
  · intro t j hj
    have old : c.tokens.get t = some j → j ≠ id → ∃ op r, c'.ops.get j = some op ∧ op.body = .request r ∧ r.token = t ∧ op.inTables = true := by
      intro hx hne
      obtain ⟨o, r, a1, a2, a3, a4⟩ := h.tokens t j hx
      exact ⟨o, r, hforth j o hne a1, a2, a3, a4⟩
    rcases hcase with ⟨r, hb, hi⟩ | hcase
    · rw [(hin r hb hi).1, AMap.get_del] at hj
      split at hj
      · cases hj
      · rename_i hne
        refine old hj ?_
        rintro rfl
        obtain ⟨o, r', a1, a2, a3, a4⟩ := h.tokens t j hj
        rw [hg] at a1
        cases a1
        rw [hb] at a2
        cases a2
        exact hne a3.symm
    · rw [(hout hcase).1] at hj
      refine old hj ?_
      rintro rfl
      obtain ⟨o, r', a1, a2, a3, a4⟩ := h.tokens t j hj
      rw [hg] at a1
      cases a1
      rcases hcase with hc | hc
      · rw [hc] at a4; cases a4
      · rw [a2] at hc; cases hc
  · intro j o r' hx hb' hi'
    obtain ⟨hj, hx⟩ := hback j o hx
    have hold := h.tokens' j o r' hx hb' hi'
    rcases hcase with ⟨r, hb, hi⟩ | hcase
    · rw [(hin r hb hi).1, AMap.get_del]
      split
      · rename_i e
        have := h.tokens' id op r hg hb hi
        rw [e, this] at hold
        cases hold
        exact absurd rfl hj
      · exact hold
    · rw [(hout hcase).1]; exact hold
  · rcases hcase with ⟨r, hb, hi⟩ | hcase
    · rw [(hin r hb hi).1]; exact AMap.nodup_del h.tokensNodup _
    · rw [(hout hcase).1]; exact h.tokensNodup
  · rw [eq1]
    exact fun j o hx => h.tables j o (hback j o hx).2
  · rw [eq9]
    intro e he i hi
    obtain ⟨o, a1, a2⟩ := h.streams e he i hi
    exact ⟨o, hforth i o (fun x => h3 e he (x ▸ hi)) a1, a2⟩
  · rw [eq10]
    intro e he i hi
    obtain ⟨o, a1, a2⟩ := h.wildcards e he i hi
    exact ⟨o, hforth i o (fun x => h4 e he (x ▸ hi)) a1, a2⟩
  · rw [eq9]; exact h.streamsNodup
  · rw [eq6]; exact fun i hi => hk _ _ (h.publishes i hi)
  · rcases hcase with ⟨r, hb, hi⟩ | hcase
    · rw [(hin r hb hi).2]; exact removePaths_nodup _ h.pathsNodup
    · rw [(hout hcase).2]; exact h.pathsNodup
  · intro t
    have hr := regs_del h.nodup hg t
    have hp := h.paths t
    rw [ho]
    rcases hcase with ⟨r, hb, hi⟩ | hcase
    · have hx : op.regs t = (r.paths.map Path.topic).count t := by
        unfold Op.regs
        rw [hi, hb]
        rfl
      rw [(hin r hb hi).2, removePaths_refs, hp]
      omega
    · have hx : op.regs t = 0 := by
        unfold Op.regs
        rcases hcase with hc | hc
        · rw [hc]; rfl
        · rcases Body.cases op.body with ⟨f, hb⟩ | ⟨r, hb⟩
          · rw [hb]; simp [Body.topics]
          · rw [hb] at hc; cases hc
      rw [(hout hcase).2, hp]
      omega
  · rcases hcase with ⟨r, hb, hi⟩ | hcase
    · rw [(hin r hb hi).2]
      exact fun t e hx => (removePaths_entry r.paths h.pathsPos hx).1
    · rw [(hout hcase).2]; exact h.pathsPos
  · have old : ∀ t e, c.paths.get t = some e → ∃ id r, Trace.submitted id r ∈ c'.log ∧ ⟨t, e.tokenPath⟩ ∈ r.paths := by
      intro t e hx
      obtain ⟨i, r, a1, a2⟩ := h.origin t e hx
      exact ⟨i, r, by rw [hlog]; simp [a1], a2⟩
    rcases hcase with ⟨r, hb, hi⟩ | hcase
    · rw [(hin r hb hi).2]
      intro t e hx
      obtain ⟨_, e0, a1, a2⟩ := removePaths_entry r.paths h.pathsPos hx
      rw [← a2]
      exact old t e0 a1
    · rw [(hout hcase).2]; exact old
  · rw [eq4, eq7]; exact h.manager
  · rw [eq4, eq7]; exact fun hp => Sound.mono (h.kinds hp) hk
  · intro s hs
    refine Told.mono (h.told s ?_) hk
    rw [← List.count_pos_iff, ← hcount _ (by simp), List.count_pos_iff]
    exact hs
  · rw [hcount _ (by simp), eq4]; exact h.initTask
  · rw [hcount _ (by simp), eq4, eq8]; exact h.shutTask

theorem removeFromTables_log (c : Client) (op : Op) : (c.removeFromTables op).log = c.log ∧ (c.removeFromTables op).ops = c.ops := by
  unfold Client.removeFromTables
  cases op.body with
  | stream f => exact ⟨rfl, rfl⟩
  | request r => simp only; split <;> exact ⟨rfl, rfl⟩

theorem destroy_ok {cfg : Config} {strict : Bool} {c : Client} {id : Nat} (h : Inv cfg strict [.destroy id] c)
    (hi : Task.initialize ∉ c.tasks) : ∃ c', c.destroy id = .ok c' ∧ Inv cfg strict [] c' := by
  have hdc : 1 ≤ ([Task.destroy id] ++ c.tasks).count (.destroy id) := by simp
  have hp : c.phase ≠ .uninitialized := by
    intro e
    have := h.initTask
    rw [count_cur (by simp), e] at this
    simp only [List.nil_append, if_true] at this
    have := List.count_pos_iff.1 (show 0 < c.tasks.count .initialize by omega)
    exact hi this
  unfold Client.destroy
  cases hg : c.ops.get id with
  | none =>
    have := h.ids id
    unfold IdOk at this
    rw [hg] at this
    have := this.2.1
    omega
  | some op =>
    simp only
    have h1 := h.leave id
    have hlast : ∀ c1 : Client, Inv cfg strict [.destroy id] c1 → c1.ops = c.ops → c1.timeouts = c.timeouts.filter (· != id) →
        c1.queue = c.queue.filter (· != id) → c1.streams = dropFrom c.streams id → c1.wildcards = dropFrom c.wildcards id →
        Inv cfg strict [] { c1.removeFromTables op with
          ops := (c1.removeFromTables op).ops.del id
          log := (match op.body with
            | .stream _ => (c1.removeFromTables op).log ++ [.closedDown id]
            | .request _ => (c1.removeFromTables op).log) } := by
      intro c1 hc1 e1 e2 e3 e4 e5
      obtain ⟨r1, r2⟩ := removeFromTables_log c1 op
      refine hc1.free (op := op) (es := match op.body with
        | .stream _ => [.closedDown id]
        | .request _ => []) (by rw [e1]; exact hg) (by rw [e2]; simp) (by rw [e3]; simp) ?_ ?_ ?_ ?_
      · rw [e4]
        intro e he hm
        exact (dropFrom_mem he hm).1 rfl
      · rw [e5]
        intro e he hm
        exact (dropFrom_mem he hm).1 rfl
      · cases op.body with
        | stream f => intro e he; cases List.mem_singleton.1 he; exact ⟨by simp, fun _ => rfl⟩
        | request r => exact .nil
      · rw [r2, r1]
        cases op.body with
        | stream f => rfl
        | request r => simp
    by_cases hs : c.phase = .shuttingDown
    · rw [if_neg (by simp [hs])]
      exact ⟨_, rfl, hlast _ h1 rfl rfl rfl rfl rfl⟩
    · have ha : c.phase = .active := by
        cases he : c.phase with
        | uninitialized => exact absurd he hp
        | active => rfl
        | shuttingDown => exact absurd he hs
      rw [if_pos hs]
      obtain ⟨hr, hc⟩ := h1.manager ha
      obtain ⟨m1, m2⟩ := Rr.release_ok (Rr.reachable_minv hr) hc op.body.filters id
      obtain ⟨l, a1, a2⟩ := manage_ok (e := .release op.body.filters id) h1 ha hc rfl m2
        (Rr.release_sound (h1.kinds ha) op.body.filters)
      simp only at a1
      simp only [a1]
      exact ⟨_, rfl, hlast _ a2 rfl rfl rfl rfl rfl⟩

end Mqtt.RrClient
