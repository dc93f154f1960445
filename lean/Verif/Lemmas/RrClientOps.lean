import Verif.Lemmas.RrClient

/-! The functions of the request-response client keep the invariant and do not fault: completion and delivery. -/
namespace Mqtt.RrClient

open Mqtt.Rr (Kind Status StatusType Action Acquired Manager matchesType)

/-- Nothing but states, counters, tasks and the log has changed. -/
structure Steady (c c' : Client) : Prop where
  queue : c'.queue = c.queue
  phase : c'.phase = c.phase
  manager : c'.manager = c.manager
  nextId : c'.nextId = c.nextId
  tokens : c'.tokens = c.tokens
  paths : c'.paths = c.paths
  streams : c'.streams = c.streams
  wildcards : c'.wildcards = c.wildcards
  timeouts : c'.timeouts = c.timeouts
  ops : ∀ j, (c'.ops.get j).map Op.view = (c.ops.get j).map Op.view

theorem Steady.refl {c : Client} : Steady c c := ⟨rfl, rfl, rfl, rfl, rfl, rfl, rfl, rfl, rfl, fun _ => rfl⟩

theorem Steady.trans {a b c : Client} (h1 : Steady a b) (h2 : Steady b c) : Steady a c where
  queue := h2.queue.trans h1.queue
  phase := h2.phase.trans h1.phase
  manager := h2.manager.trans h1.manager
  nextId := h2.nextId.trans h1.nextId
  tokens := h2.tokens.trans h1.tokens
  paths := h2.paths.trans h1.paths
  streams := h2.streams.trans h1.streams
  wildcards := h2.wildcards.trans h1.wildcards
  timeouts := h2.timeouts.trans h1.timeouts
  ops := fun j => (h2.ops j).trans (h1.ops j)

theorem Steady.forth {c c' : Client} (h : Steady c c') {j : Nat} {o : Op} (hg : c.ops.get j = some o) :
    ∃ o', c'.ops.get j = some o' ∧ o'.view = o.view := by
  have := h.ops j
  rw [hg] at this
  cases hx : c'.ops.get j with
  | none => rw [hx] at this; cases this
  | some o' => rw [hx] at this; exact ⟨o', rfl, Option.some.inj this⟩

theorem Steady.set {c : Client} {id : Nat} {op op' : Op} {l : List Task} {es : List Trace} {p : List Nat}
    (hg : c.ops.get id = some op) (hv : op'.view = op.view) :
    Steady c { c with ops := c.ops.set id op', tasks := c.tasks ++ l, log := c.log ++ es, publishes := p } := by
  refine ⟨rfl, rfl, rfl, rfl, rfl, rfl, rfl, rfl, rfl, ?_⟩
  intro j
  simp only [AMap.get_set]
  split
  · rename_i e; rw [e, hg]; simp [hv]
  · rfl

theorem releaseOp_eq {c : Client} {id : Nat} {op : Op} (hg : c.ops.get id = some op) :
    c.releaseOp id = .ok { c with ops := c.ops.set id { op with refs := decrement op.refs }
                                  tasks := c.tasks ++ if op.refs = 1 then [.destroy id] else [] } := by
  simp only [Client.releaseOp, hg]
  split <;> simp

theorem idOk_request {strict : Bool} {cur : List Task} {c : Client} {id : Nat} {op : Op} {r : Request}
    (h : IdOk strict cur c id) (hg : c.ops.get id = some op) (hb : op.body = .request r) :
    id < c.nextId ∧ (op.tracked = true → (cur ++ c.tasks).count (.submit id) = 0) ∧
    Trace.submitted id r ∈ c.log ∧ (∀ r', Trace.submitted id r' ∈ c.log → r' = r) ∧
      ReqOk strict ((cur ++ c.tasks).count (.submit id)) ((cur ++ c.tasks).count (.destroy id)) (completions c.log id)
        (Task.submit id ∈ cur) (id ∈ c.queue) op := by
  unfold IdOk at h
  rw [hg] at h
  simp only [hb] at h
  exact h

theorem idOk_stream {strict : Bool} {cur : List Task} {c : Client} {id : Nat} {op : Op} {f : Bytes}
    (h : IdOk strict cur c id) (hg : c.ops.get id = some op) (hb : op.body = .stream f) :
    id < c.nextId ∧ (op.tracked = true → (cur ++ c.tasks).count (.submit id) = 0) ∧ ¬ wasSubmitted c.log id ∧
      StrOk ((cur ++ c.tasks).count (.submit id)) ((cur ++ c.tasks).count (.destroy id)) (completions c.log id) op := by
  unfold IdOk at h
  rw [hg] at h
  simp only [hb] at h
  exact h

theorem OnlyAbout.nil {id : Nat} : OnlyAbout id [] := by intro e he; cases he

theorem OnlyAbout.completion {id : Nat} {e : Trace} (h : isCompletion id e = true) : OnlyAbout id [e] := by
  intro e' he
  cases List.mem_singleton.1 he
  cases e <;> simp_all [isCompletion]
  all_goals (intro j hj; omega)

theorem submit_count {cur : List Task} {c : Client} {id : Nat} {l : List Task} (hl : ∀ t ∈ l, t = Task.destroy id)
    (i : Nat) : (cur ++ (c.tasks ++ l)).count (.submit i) = (cur ++ c.tasks).count (.submit i) := by
  have : l.count (.submit i) = 0 := by
    rw [List.count_eq_zero]
    intro hm
    cases hl _ hm
  simp only [List.count_append, this]
  omega

/-- The completion callback of a request is invoked and the client's reference released. -/
theorem finish_ok {cfg : Config} {strict : Bool} {cur : List Task} {c : Client} (h : Inv cfg strict cur c) {id : Nat}
    {op : Op} {r : Request} (hg : c.ops.get id = some op) (hb : op.body = .request r) (hs : op.state ≠ .pendingDestroy)
    (hr : op.tracked = true ∨ Task.submit id ∈ cur) (hq : strict = true → c.phase ≠ .shuttingDown → id ∉ c.queue)
    {e : Trace} (he : isCompletion id e = true) :
    ∃ c', Client.releaseOp { c with ops := c.ops.set id { op with state := .pendingDestroy }, log := c.log ++ [e] } id = .ok c' ∧
      Inv cfg strict cur c' ∧ Steady c c' := by
  obtain ⟨i1, i2, i3, i4, i5⟩ := idOk_request (h.ids id) hg hb
  rw [releaseOp_eq (op := { op with state := .pendingDestroy }) (by simp)]
  simp only [AMap.set_set]
  refine ⟨_, rfl, ?_, ?_⟩
  · have hl : ∀ t ∈ (if op.refs = 1 then [Task.destroy id] else []), t = .destroy id := by
      intro t ht
      split at ht
      · simpa using ht
      · cases ht
    refine h.change (op' := { op with state := .pendingDestroy, refs := decrement op.refs })
      (l := if op.refs = 1 then [.destroy id] else []) (es := [e]) hg rfl rfl (fun i hi => .inl hi) (fun t ht => .inl (hl t ht))
      (.completion he) ?_ ?_
    · have hlog : ∀ r', Trace.submitted id r' ∈ c.log ++ [e] ↔ Trace.submitted id r' ∈ c.log :=
        (OnlyAbout.completion he).submitted id
      have hcomp : completions (c.log ++ [e]) id = completions c.log id + 1 := by
        rw [completions_append]
        simp [completions, he]
      unfold IdOk
      simp only [AMap.get_set_same, hb, hlog, hcomp, submit_count hl]
      refine ⟨i1, i2, i3, i4, ?_⟩
      rcases i5 with ⟨a1, a2, a3, a4, a5, a6⟩ | ⟨a1, a2, a3, a4, a5⟩ | ⟨a1, a2, a3, a4, a5, a6⟩
      · have hs2 : (cur ++ c.tasks).count (.submit id) = 1 → Task.submit id ∈ cur := by
          intro e1
          rcases hr with hr | hr
          · rw [i2 hr] at e1; cases e1
          · exact hr
        refine .completed ?_ ?_ hs2 (by omega) (.inl rfl)
        · simp only [← List.append_assoc, List.count_append] at a1 a2 a3 ⊢
          by_cases e1 : op.refs = 1
          · rw [if_pos e1]
            simp only [List.count_cons, List.count_nil, beq_self_eq_true, if_true]
            omega
          · rw [if_neg e1]
            simp only [List.count_nil]
            omega
        · simp only [decrement, a3]
          rw [if_neg (by omega)]
          omega
      · rcases a5 with a5 | ⟨a5, a6, a7⟩
        · exact absurd a5 hs
        · rw [a7] at a2
          refine .twice a5 ?_ a7 (by omega) rfl a6
          rw [a2, if_neg (by omega), List.append_nil]
          omega
      · exact absurd a5 hs
    · intro hst hact hx _
      exact absurd hx (hq hst hact)
  · exact Steady.set (op' := { op with state := .pendingDestroy, refs := decrement op.refs }) hg rfl

theorem failRequest_ok {cfg : Config} {strict : Bool} {cur : List Task} {c : Client} (h : Inv cfg strict cur c) {id : Nat}
    {op : Op} (hg : c.ops.get id = some op) (hb : op.body.kind = .request)
    (hr : op.tracked = true ∨ Task.submit id ∈ cur) (hq : strict = true → c.phase ≠ .shuttingDown → id ∉ c.queue)
    (error : Failure) :
    ∃ c', c.failRequest id error = .ok c' ∧ Inv cfg strict cur c' ∧ Steady c c' := by
  simp only [Client.failRequest, hg]
  split
  · rename_i f hb'; rw [hb'] at hb; cases hb
  · rename_i r hb'
    split
    · exact ⟨c, rfl, h, .refl⟩
    · rename_i hs
      exact finish_ok h hg hb' hs hr hq (e := .failed id error) (by simp [isCompletion])

theorem halt_ok {cfg : Config} {strict : Bool} {cur : List Task} {c : Client} (h : Inv cfg strict cur c) {id : Nat}
    {op : Op} (hg : c.ops.get id = some op) (hb : op.body.kind = .stream) (error : Failure) :
    ∃ c', c.halt id error = .ok c' ∧ Inv cfg strict cur c' ∧ Steady c c' := by
  simp only [Client.halt, hg]
  split
  · rename_i f hb'; rw [hb'] at hb; cases hb
  · rename_i f hb'
    split
    · exact ⟨c, rfl, h, .refl⟩
    · obtain ⟨i1, i2, i3, i4⟩ := idOk_stream (h.ids id) hg hb'
      have he : OnlyAbout id [.status id (.halted error)] := by
        intro e he
        cases List.mem_singleton.1 he
        exact ⟨by simp, fun _ _ => rfl⟩
      refine ⟨_, rfl, ?_, ?_⟩
      · refine h.change (op' := { op with state := .terminal }) (l := []) (es := [.status id (.halted error)]) hg rfl
          (by simp) (fun i hi => .inl hi) (by simp) he ?_ ?_
        · unfold IdOk
          simp only [AMap.get_set_same, hb', he.wasSubmitted, completions_append]
          refine ⟨i1, i2, i3, ?_⟩
          rw [show completions [Trace.status id (.halted error)] id = 0 from rfl]
          exact ⟨i4.submit, i4.refs, i4.destroy, i4.activated, i4.tracked, i4.none⟩
        · intro _ _ _ hk
          rw [hb] at hk
          cases hk
      · have := Steady.set (l := []) (es := [Trace.status id (.halted error)]) (p := c.publishes)
          (op' := { op with state := .terminal }) hg rfl
        simpa using this

theorem failOp_ok {cfg : Config} {strict : Bool} {cur : List Task} {c : Client} (h : Inv cfg strict cur c) {id : Nat}
    {op : Op} (hg : c.ops.get id = some op)
    (hr : op.tracked = true ∨ Task.submit id ∈ cur) (hq : strict = true → c.phase ≠ .shuttingDown → id ∉ c.queue)
    (error : Failure) :
    ∃ c', c.failOp id error = .ok c' ∧ Inv cfg strict cur c' ∧ Steady c c' := by
  simp only [Client.failOp, hg]
  cases hb : op.body with
  | stream f => exact halt_ok h hg (by rw [hb]; rfl) error
  | request r => exact failRequest_ok h hg (by rw [hb]; rfl) hr hq error

/-- Entries that say nothing about completions. -/
def Neutral (es : List Trace) : Prop := ∀ e ∈ es, (∀ i r, e ≠ .submitted i r) ∧ ∀ j, isCompletion j e = false

theorem Neutral.only {es : List Trace} (h : Neutral es) (id : Nat) : OnlyAbout id es :=
  fun e he => ⟨(h e he).1, fun j _ => (h e he).2 j⟩

theorem Neutral.completions {es : List Trace} (h : Neutral es) (id : Nat) : completions es id = 0 := by
  unfold RrClient.completions
  rw [List.countP_eq_zero]
  intro e he
  rw [(h e he).2 id]
  simp

theorem Neutral.nil : Neutral [] := by intro e he; cases he

/-- The operations do not change. -/
theorem Inv.env {cfg : Config} {strict : Bool} {cur : List Task} {c c' : Client} (h : Inv cfg strict cur c)
    {l : List Task} {es : List Trace}
    (hc' : c' = { c with tasks := c.tasks ++ l, log := c.log ++ es, manager := c'.manager, timeouts := c'.timeouts
                         publishes := c'.publishes, scheduled := c'.scheduled, clock := c'.clock, adapter := c'.adapter
                         terminated := c'.terminated })
    (hl : ∀ t ∈ l, ∃ s, t = .status s ∧ Rr.Told (Known c) s) (he : Neutral es) (ht : ∀ i ∈ c'.timeouts, i ∈ c.timeouts)
    (hp : ∀ i ∈ c'.publishes, Known c .request i)
    (hm : c.phase = .active → (Rr.Reachable cfg.manager c'.manager ∧ c'.manager.closed = false) ∧
      Rr.Sound (Known c) c'.manager.records) : Inv cfg strict cur c' := by
  have ho : c'.ops = c.ops := by rw [hc']
  have hq : c'.queue = c.queue := by rw [hc']
  have htk : c'.tasks = c.tasks ++ l := by rw [hc']
  have hlog : c'.log = c.log ++ es := by rw [hc']
  have hnext : c'.nextId = c.nextId := by rw [hc']
  have hph : c'.phase = c.phase := by rw [hc']
  have hk : Known c' = Known c := by
    funext k i
    unfold Known
    rw [ho, hq, hnext]
  have hcount : ∀ t : Task, (∀ s, t ≠ .status s) → (cur ++ c'.tasks).count t = (cur ++ c.tasks).count t := by
    intro t hne
    have : l.count t = 0 := by
      rw [List.count_eq_zero]
      intro hm
      obtain ⟨s, e, _⟩ := hl t hm
      exact hne s e
    rw [htk]
    simp only [List.count_append, this]
    omega
  refine ⟨?_, ?_, ?_, ?_, ?_, ?_, ?_, ?_, ?_, ?_, ?_, ?_, ?_, ?_, ?_, ?_, ?_, ?_, ?_, ?_, ?_, ?_, ?_⟩
  · intro j
    refine (h.ids j).of (by rw [ho]) (hcount _ (by simp)) (hcount _ (by simp)) ?_ ?_ (Nat.le_of_eq hnext.symm)
      (by rw [hq]; exact fun x => x) (fun x => x)
    · rw [hlog, completions_append, he.completions]; rfl
    · intro r; rw [hlog]; exact (he.only j).submitted j r
  · rw [ho]; exact h.nodup
  · rw [hq]; exact h.queueNodup
  · rw [hq, ho]; exact h.queue
  · rw [hq, ho, hph]; exact h.fresh
  · rw [ho]; exact fun j hj => h.timeouts j (ht j hj)
  · rw [ho, show c'.tokens = c.tokens by rw [hc']]; exact h.tokens
  · rw [ho, show c'.tokens = c.tokens by rw [hc']]; exact h.tokens'
  · rw [show c'.tokens = c.tokens by rw [hc']]; exact h.tokensNodup
  · rw [ho, hq]; exact h.tables
  · rw [ho, show c'.streams = c.streams by rw [hc']]; exact h.streams
  · rw [ho, show c'.wildcards = c.wildcards by rw [hc']]; exact h.wildcards
  · rw [show c'.streams = c.streams by rw [hc']]; exact h.streamsNodup
  · rw [hk]; exact hp
  · rw [show c'.paths = c.paths by rw [hc']]; exact h.pathsNodup
  · rw [ho, show c'.paths = c.paths by rw [hc']]; exact h.paths
  · rw [show c'.paths = c.paths by rw [hc']]; exact h.pathsPos
  · rw [show c'.paths = c.paths by rw [hc'], hlog]
    intro t e hx
    obtain ⟨i, r, a1, a2⟩ := h.origin t e hx
    exact ⟨i, r, by simp [a1], a2⟩
  · rw [hph]; exact fun hx => (hm hx).1
  · rw [hph, hk]; exact fun hx => (hm hx).2
  · rw [hk, htk]
    intro s hs
    rcases List.mem_append.1 hs with hs | hs
    · exact h.told s (List.mem_append.2 (.inl hs))
    · rcases List.mem_append.1 hs with hs | hs
      · exact h.told s (List.mem_append.2 (.inr hs))
      · obtain ⟨s', e, hx⟩ := hl _ hs
        cases e
        exact hx
  · rw [hcount _ (by simp), hph]; exact h.initTask
  · rw [hcount _ (by simp), hph, show c'.held = c.held by rw [hc']]; exact h.shutTask

/-- Only the log grows. -/
theorem Inv.say {cfg : Config} {strict : Bool} {cur : List Task} {c : Client} (h : Inv cfg strict cur c) {es : List Trace}
    (he : Neutral es) : Inv cfg strict cur { c with log := c.log ++ es } :=
  h.env (l := []) (es := es) (by simp) (by simp) he (fun _ hi => hi) h.publishes
    (fun hx => ⟨h.manager hx, h.kinds hx⟩)

theorem Steady.say {c : Client} (es : List Trace) : Steady c { c with log := c.log ++ es } :=
  ⟨rfl, rfl, rfl, rfl, rfl, rfl, rfl, rfl, rfl, fun _ => rfl⟩

theorem wake_ok {cfg : Config} {strict : Bool} {cur : List Task} {c : Client} (h : Inv cfg strict cur c) (now : Nat) :
    Inv cfg strict cur (c.wake now) ∧ Steady c (c.wake now) := by
  unfold Client.wake
  split
  · exact ⟨h, .refl⟩
  · split
    · exact ⟨h.env (l := []) (es := []) (by simp) (by simp) .nil (fun _ hi => hi) h.publishes
        (fun hx => ⟨h.manager hx, h.kinds hx⟩), ⟨rfl, rfl, rfl, rfl, rfl, rfl, rfl, rfl, rfl, fun _ => rfl⟩⟩
    · exact ⟨h, .refl⟩

theorem deliver_ok {cfg : Config} {strict : Bool} {cur : List Task} (msg : Message) : ∀ (ids : List Nat) {c : Client},
    Inv cfg strict cur c → (∀ i ∈ ids, c.ops.get i ≠ none) →
    ∃ es, c.deliver msg ids = .ok { c with log := c.log ++ es } ∧ Neutral es := by
  intro ids
  induction ids with
  | nil => intro c _ _; exact ⟨[], by simp [Client.deliver, each], .nil⟩
  | cons i ids ih =>
    intro c h hi
    have h1 : ∃ es, Client.deliverOne msg c i = .ok { c with log := c.log ++ es } ∧ Neutral es := by
      unfold Client.deliverOne
      cases hg : c.ops.get i with
      | none => exact absurd hg (hi i (by simp))
      | some op =>
        simp only
        split
        · exact ⟨[], by simp, .nil⟩
        · split
          · exact ⟨[], by simp, .nil⟩
          · exact ⟨_, rfl, by intro e he; cases List.mem_singleton.1 he; exact ⟨by simp, fun _ => rfl⟩⟩
    obtain ⟨es, e1, e2⟩ := h1
    obtain ⟨es', f1, f2⟩ := ih (h.say e2) (fun j hj => hi j (by simp [hj]))
    refine ⟨es ++ es', ?_, ?_⟩
    · simp only [Client.deliver, each, e1] at f1 ⊢
      rw [f1]
      simp
    · intro e he
      rcases List.mem_append.1 he with he | he
      · exact e2 e he
      · exact f2 e he

theorem deliverExact_ok {cfg : Config} {strict : Bool} {cur : List Task} {c : Client} (h : Inv cfg strict cur c)
    (msg : Message) : ∃ es, c.deliverExact msg = .ok { c with log := c.log ++ es } ∧ Neutral es := by
  unfold Client.deliverExact
  cases hg : c.streams.get msg.topic with
  | none => exact ⟨[], by simp, .nil⟩
  | some ids =>
    apply deliver_ok msg ids h
    intro i hi
    obtain ⟨op, h1, _⟩ := h.streams _ (AMap.get_some_mem hg) i hi
    rw [h1]; simp

theorem deliverWildcards_ok {cfg : Config} {strict : Bool} {cur : List Task} (msg : Message) :
    ∀ (m : AMap Bytes (List Nat)) {c : Client}, Inv cfg strict cur c → (∀ e ∈ m, ∀ i ∈ e.2, c.ops.get i ≠ none) →
    ∃ es, Client.deliverWildcards msg c m = .ok { c with log := c.log ++ es } ∧ Neutral es := by
  intro m
  induction m with
  | nil => intro c _ _; exact ⟨[], by simp [Client.deliverWildcards], .nil⟩
  | cons e m ih =>
    intro c h hi
    obtain ⟨f, ids⟩ := e
    simp only [Client.deliverWildcards]
    split
    · obtain ⟨es, e1, e2⟩ := deliver_ok msg ids h (fun i hx => hi (f, ids) (by simp) i hx)
      rw [e1]
      obtain ⟨es', f1, f2⟩ := ih (h.say e2) (fun e he => hi e (by simp [he]))
      refine ⟨es ++ es', ?_, ?_⟩
      · simp only [f1]; simp
      · intro e he
        rcases List.mem_append.1 he with he | he
        · exact e2 e he
        · exact f2 e he
    · exact ih h (fun e he => hi e (by simp [he]))

theorem respond_ok {cfg : Config} {strict : Bool} {cur : List Task} {c : Client} (h : Inv cfg strict cur c)
    (token : Bytes) (msg : Message) : ∃ c', c.respond token msg = .ok c' ∧ Inv cfg strict cur c' ∧ Steady c c' := by
  unfold Client.respond
  cases ht : c.tokens.get token with
  | none => exact ⟨c, rfl, h, .refl⟩
  | some id =>
    obtain ⟨op, r, h1, h2, h3, h4⟩ := h.tokens token id ht
    simp only [h1]
    split
    · rename_i f hb'; rw [hb'] at h2; cases h2
    · split
      · exact ⟨c, rfl, h, .refl⟩
      · rename_i hs
        obtain ⟨t1, t2⟩ := h.tables id op h1 h4
        exact finish_ok h h1 h2 hs (.inl t1) (fun _ _ => t2) (e := .response id msg.topic msg.payload) (by simp [isCompletion])

theorem onPublish_ok {cfg : Config} {strict : Bool} {cur : List Task} {c : Client} (h : Inv cfg strict cur c)
    (msg : Message) : ∃ c', c.onPublish cfg msg = .ok c' ∧ Inv cfg strict cur c' ∧ Steady c c' := by
  unfold Client.onPublish
  split
  · exact ⟨c, rfl, h, .refl⟩
  · obtain ⟨es, e1, e2⟩ := deliverExact_ok h msg
    have h1 := h.say e2
    obtain ⟨es', f1, f2⟩ := deliverWildcards_ok msg c.wildcards h1 (by
      intro e he i hi
      obtain ⟨op, h1, _⟩ := h.wildcards e he i hi
      simp only [h1]; simp)
    have h2 := h1.say f2
    have hst : Steady c { c with log := c.log ++ es ++ es' } := ⟨rfl, rfl, rfl, rfl, rfl, rfl, rfl, rfl, rfl, fun _ => rfl⟩
    simp only [e1, f1]
    split
    · exact ⟨_, rfl, h2, hst⟩
    · unfold Client.applyResponse
      split
      · exact ⟨_, rfl, h2, hst⟩
      · obtain ⟨c', a1, a2, a3⟩ := respond_ok h2 _ msg
        exact ⟨c', a1, a2, hst.trans a3⟩

theorem publishDone_ok {cfg : Config} {strict : Bool} {cur : List Task} {c : Client} (h : Inv cfg strict cur c)
    {id : Nat} (hi : id ∈ c.publishes) (ok : Bool) : ∃ c', c.publishDone id ok = .ok c' ∧ Inv cfg strict cur c' ∧
      Steady c c' ∧ c'.publishes = c.publishes.erase id := by
  have h1 : Inv cfg strict cur { c with publishes := c.publishes.erase id } :=
    h.env (l := []) (es := []) (by simp) (by simp) .nil (fun _ hi => hi) (fun _ hi => h.publishes _ (List.mem_of_mem_erase hi))
      (fun hx => ⟨h.manager hx, h.kinds hx⟩)
  have h0 : Steady c { c with publishes := c.publishes.erase id } :=
    ⟨rfl, rfl, rfl, rfl, rfl, rfl, rfl, rfl, rfl, fun _ => rfl⟩
  unfold Client.publishDone
  simp only
  split
  · exact ⟨_, rfl, h1, h0, rfl⟩
  · split
    · exact ⟨_, rfl, h1, h0, rfl⟩
    · rename_i op hg
      split
      · rename_i htr
        obtain ⟨k1, k2, k3⟩ := h.publishes id hi
        obtain ⟨c', a1, a2, a3⟩ := failRequest_ok h1 hg (k3 op hg).1 (.inl htr) (fun _ _ => k2) .publishFailure
        refine ⟨c', a1, a2, h0.trans a3, ?_⟩
        unfold Client.failRequest at a1
        simp only [hg] at a1
        split at a1
        · cases a1
        · split at a1
          · cases a1; rfl
          · rw [releaseOp_eq (op := { op with state := .pendingDestroy }) (by simp)] at a1
            cases a1; rfl
      · exact ⟨_, rfl, h1, h0, rfl⟩

end Mqtt.RrClient
