import Verif.Spec.RrClient
import Verif.Lemmas.RrSound

/-! The invariant of the request-response client: definitions and the effect of single changes. -/
namespace Mqtt.RrClient

open Mqtt.Rr (Kind Status StatusType Action Acquired Manager matchesType)

/-- References of a request: `s` submit tasks and `d` destroy tasks are waiting, its callback was invoked `n` times. -/
inductive ReqOk (strict : Bool) (s d n : Nat) (running queued : Prop) (op : Op) : Prop where
  | waiting : d = 0 → s ≤ 1 → op.refs = s + 1 → op.state ≠ .pendingDestroy → n = 0 →
    (op.tracked = false → s = 1) → ReqOk strict s d n running queued op
  | completed : d + s = 1 → op.refs = s → (s = 1 → running) → n = 1 →
    (op.state = .pendingDestroy ∨ strict = false ∧ ¬ queued ∧ s = 0) → ReqOk strict s d n running queued op
  | twice : strict = false → d = 1 → s = 0 → n = 2 → op.state = .pendingDestroy → ¬ queued →
    ReqOk strict s d n running queued op

/-- References of a stream. -/
structure StrOk (s d n : Nat) (op : Op) : Prop where
  submit : s ≤ 1
  refs : op.refs = s + (if op.held then 1 else 0)
  destroy : d = if op.refs = 0 then 1 else 0
  activated : s = 1 → op.activated = true
  tracked : op.tracked = true → op.activated = true
  none : n = 0

/-- An operation that is gone, or has never been there. -/
structure Gone (strict : Bool) (c : Client) (id : Nat) : Prop where
  atLeast : wasSubmitted c.log id → 1 ≤ completions c.log id
  atMost : completions c.log id ≤ 2
  strict : strict = true → completions c.log id ≤ 1
  submitted : 0 < completions c.log id → wasSubmitted c.log id
  fresh : c.nextId ≤ id → completions c.log id = 0 ∧ ¬ wasSubmitted c.log id

/-- What holds for an id. -/
def IdOk (strict : Bool) (cur : List Task) (c : Client) (id : Nat) : Prop :=
  match c.ops.get id with
  | none => (cur ++ c.tasks).count (.submit id) = 0 ∧ (cur ++ c.tasks).count (.destroy id) = 0 ∧ Gone strict c id
  | some op => id < c.nextId ∧ (op.tracked = true → (cur ++ c.tasks).count (.submit id) = 0) ∧
    match op.body with
    | .request r => Trace.submitted id r ∈ c.log ∧ (∀ r', Trace.submitted id r' ∈ c.log → r' = r) ∧
      ReqOk strict ((cur ++ c.tasks).count (.submit id)) ((cur ++ c.tasks).count (.destroy id)) (completions c.log id)
        (Task.submit id ∈ cur) (id ∈ c.queue) op
    | .stream _ => ¬ wasSubmitted c.log id ∧
      StrOk ((cur ++ c.tasks).count (.submit id)) ((cur ++ c.tasks).count (.destroy id)) (completions c.log id) op

/-- An operation the subscription manager may know: it has been taken from the queue. -/
def Known (c : Client) (k : Kind) (i : Nat) : Prop :=
  i < c.nextId ∧ i ∉ c.queue ∧ ∀ op, c.ops.get i = some op → op.body.kind = k ∧ op.tracked = true

/-- Response topics of an operation. -/
def Body.topics : Body → List Bytes
  | .request r => r.paths.map Path.topic
  | .stream _ => []

/-- How often an operation has registered a topic. -/
def Op.regs (t : Bytes) (op : Op) : Nat := if op.inTables then op.body.topics.count t else 0

/-- How often a topic is registered. -/
def regs (ops : AMap Nat Op) (t : Bytes) : Nat := (ops.map fun e => e.2.regs t).sum

/-- The invariant; `cur` is the task being run. -/
structure Inv (cfg : Config) (strict : Bool) (cur : List Task) (c : Client) : Prop where
  ids : ∀ id, IdOk strict cur c id
  nodup : c.ops.Nodup
  queueNodup : c.queue.Nodup
  queue : ∀ id ∈ c.queue, ∃ op, c.ops.get id = some op ∧ op.tracked = true ∧ op.inTables = false
  fresh : strict = true → c.phase ≠ .shuttingDown → ∀ id ∈ c.queue, ∀ op r, c.ops.get id = some op → op.body = .request r →
    op.state ≠ .pendingDestroy
  timeouts : ∀ id ∈ c.timeouts, ∃ op r, c.ops.get id = some op ∧ op.body = .request r ∧ op.tracked = true
  tokens : ∀ t id, c.tokens.get t = some id → ∃ op r, c.ops.get id = some op ∧ op.body = .request r ∧ r.token = t ∧
    op.inTables = true
  tokens' : ∀ id op r, c.ops.get id = some op → op.body = .request r → op.inTables = true → c.tokens.get r.token = some id
  tokensNodup : c.tokens.Nodup
  tables : ∀ id op, c.ops.get id = some op → op.inTables = true → op.tracked = true ∧ id ∉ c.queue
  streams : ∀ e ∈ c.streams, ∀ id ∈ e.2, ∃ op, c.ops.get id = some op ∧ op.body = .stream e.1 ∧ op.inTables = true
  wildcards : ∀ e ∈ c.wildcards, ∀ id ∈ e.2, ∃ op, c.ops.get id = some op ∧ op.body = .stream e.1 ∧ op.inTables = true
  streamsNodup : c.streams.Nodup
  publishes : ∀ id ∈ c.publishes, Known c .request id
  pathsNodup : c.paths.Nodup
  paths : ∀ t, ((c.paths.get t).map PathEntry.refs).getD 0 = regs c.ops t
  pathsPos : ∀ t e, c.paths.get t = some e → e.refs ≠ 0
  origin : ∀ t e, c.paths.get t = some e → ∃ id r, Trace.submitted id r ∈ c.log ∧ ⟨t, e.tokenPath⟩ ∈ r.paths
  manager : c.phase = .active → Rr.Reachable cfg.manager c.manager ∧ c.manager.closed = false
  kinds : c.phase = .active → Rr.Sound (Known c) c.manager.records
  told : ∀ s, Task.status s ∈ cur ++ c.tasks → Rr.Told (Known c) s
  initTask : (cur ++ c.tasks).count .initialize = if c.phase = .uninitialized then 1 else 0
  shutTask : (cur ++ c.tasks).count .shutdown + (if c.held then 1 else 0) + (if c.phase = .shuttingDown then 1 else 0) = 1

theorem Known.mono {c c' : Client} {k : Kind} {i : Nat} (h : Known c k i) (hn : c.nextId ≤ c'.nextId)
    (hq : i ∈ c'.queue → i ∈ c.queue) (ho : ∀ op', c'.ops.get i = some op' → ∃ op, c.ops.get i = some op ∧
      op'.body = op.body ∧ (op.tracked = true → op'.tracked = true)) : Known c' k i := by
  refine ⟨Nat.lt_of_lt_of_le h.1 hn, fun hx => h.2.1 (hq hx), ?_⟩
  intro op' hx
  obtain ⟨op, h1, h2, h3⟩ := ho op' hx
  obtain ⟨h4, h5⟩ := h.2.2 op h1
  exact ⟨by rw [h2]; exact h4, h3 h5⟩

theorem Told.mono {P Q : Kind → Nat → Prop} {s : Status} (h : Rr.Told P s) (hpq : ∀ k i, P k i → Q k i) : Rr.Told Q s := by
  rcases h with h | h | ⟨k, h1, h2⟩
  · exact .inl h
  · exact .inr (.inl h)
  · exact .inr (.inr ⟨k, h1, hpq _ _ h2⟩)

theorem Sound.mono {P Q : Kind → Nat → Prop} {m : AMap Bytes Rr.Record} (h : Rr.Sound P m) (hpq : ∀ k i, P k i → Q k i) :
    Rr.Sound Q m := fun e he i hi => hpq _ _ (h e he i hi)

/-- What other parts of the client see of an operation. -/
def Op.view (op : Op) : Body × Bool × Bool := (op.body, op.tracked, op.inTables)

theorem Op.view_eq {a b : Op} (h : a.view = b.view) : a.body = b.body ∧ a.tracked = b.tracked ∧ a.inTables = b.inTables := by
  unfold Op.view at h
  simp only [Prod.mk.injEq] at h
  exact h

theorem regs_perm {m m' : AMap Nat Op} (h : m.Perm m') (t : Bytes) : regs m t = regs m' t := (h.map _).sum_nat

theorem regs_cons (e : Nat × Op) (m : AMap Nat Op) (t : Bytes) : regs (e :: m) t = e.2.regs t + regs m t := by
  simp [regs]

theorem regs_set {m : AMap Nat Op} (hn : m.Nodup) {id : Nat} {op op' : Op} (hg : m.get id = some op) (t : Bytes) :
    regs (m.set id op') t + op.regs t = regs m t + op'.regs t := by
  rw [regs_perm (AMap.perm_del hn hg) t, AMap.set, regs_cons, regs_cons]
  simp only
  omega

theorem regs_del {m : AMap Nat Op} (hn : m.Nodup) {id : Nat} {op : Op} (hg : m.get id = some op) (t : Bytes) :
    regs (m.del id) t + op.regs t = regs m t := by
  rw [regs_perm (AMap.perm_del hn hg) t, regs_cons]
  simp only
  omega

theorem regs_new {m : AMap Nat Op} {id : Nat} {op : Op} (hg : m.get id = none) (t : Bytes) :
    regs (m.set id op) t = regs m t + op.regs t := by
  rw [regs_perm (AMap.perm_set id op hg) t, regs_cons]
  simp only
  omega

/-- Entries that only matter for one id. -/
def OnlyAbout (id : Nat) (es : List Trace) : Prop :=
  ∀ e ∈ es, (∀ i r, e ≠ .submitted i r) ∧ ∀ j, j ≠ id → isCompletion j e = false

theorem completions_append (log es : List Trace) (id : Nat) :
    completions (log ++ es) id = completions log id + completions es id := by
  unfold completions
  rw [List.countP_append]

theorem OnlyAbout.completions {id j : Nat} {es : List Trace} (h : OnlyAbout id es) (hne : j ≠ id) :
    completions es j = 0 := by
  unfold RrClient.completions
  rw [List.countP_eq_zero]
  intro e he
  rw [(h e he).2 j hne]
  simp

theorem OnlyAbout.submitted {id : Nat} {es log : List Trace} (h : OnlyAbout id es) (j : Nat) (r : Request) :
    Trace.submitted j r ∈ log ++ es ↔ Trace.submitted j r ∈ log := by
  rw [List.mem_append]
  constructor
  · rintro (hx | hx)
    · exact hx
    · exact absurd rfl ((h _ hx).1 j r)
  · exact .inl

theorem OnlyAbout.wasSubmitted {id : Nat} {es log : List Trace} (h : OnlyAbout id es) (j : Nat) :
    RrClient.wasSubmitted (log ++ es) j ↔ RrClient.wasSubmitted log j := by
  unfold RrClient.wasSubmitted
  simp only [h.submitted]

/-- What the account of an id depends on. -/
theorem IdOk.of {strict : Bool} {cur cur' : List Task} {c c' : Client} {id : Nat} (h : IdOk strict cur c id)
    (ho : c'.ops.get id = c.ops.get id) (hs : (cur' ++ c'.tasks).count (.submit id) = (cur ++ c.tasks).count (.submit id))
    (hd : (cur' ++ c'.tasks).count (.destroy id) = (cur ++ c.tasks).count (.destroy id))
    (hc : completions c'.log id = completions c.log id)
    (hl : ∀ r, Trace.submitted id r ∈ c'.log ↔ Trace.submitted id r ∈ c.log)
    (hn : c.nextId ≤ c'.nextId) (hq : id ∈ c'.queue → id ∈ c.queue) (hr : Task.submit id ∈ cur → Task.submit id ∈ cur') :
    IdOk strict cur' c' id := by
  have hw : wasSubmitted c'.log id ↔ wasSubmitted c.log id := by unfold wasSubmitted; simp only [hl]
  unfold IdOk at h ⊢
  rw [ho, hs, hd]
  cases hg : c.ops.get id with
  | none =>
    rw [hg] at h
    obtain ⟨h1, h2, h3⟩ := h
    refine ⟨h1, h2, ?_⟩
    constructor
    · rw [hw, hc]; exact h3.atLeast
    · rw [hc]; exact h3.atMost
    · rw [hc]; exact h3.strict
    · rw [hw, hc]; exact h3.submitted
    · rw [hw, hc]; exact fun hx => h3.fresh (Nat.le_trans hn hx)
  | some op =>
    rw [hg] at h
    simp only at h ⊢
    obtain ⟨h1, h2, h3⟩ := h
    refine ⟨Nat.lt_of_lt_of_le h1 hn, h2, ?_⟩
    cases hb : op.body with
    | request r =>
      rw [hb] at h3
      simp only at h3 ⊢
      simp only [hl, hc]
      refine ⟨h3.1, h3.2.1, ?_⟩
      rcases h3.2.2 with ⟨a1, a2, a3, a4, a5, a6⟩ | ⟨a1, a2, a3, a4, a5⟩ | ⟨a1, a2, a3, a4, a5, a6⟩
      · exact .waiting a1 a2 a3 a4 a5 a6
      · refine .completed a1 a2 (fun e => hr (a3 e)) a4 ?_
        rcases a5 with a5 | ⟨a5, a6, a7⟩
        · exact .inl a5
        · exact .inr ⟨a5, fun hx => a6 (hq hx), a7⟩
      · exact .twice a1 a2 a3 a4 a5 (fun hx => a6 (hq hx))
    | stream f =>
      rw [hb] at h3
      simp only at h3 ⊢
      rw [hw, hc]
      exact h3

/-- An operation changes without a change of its place in the tables. -/
theorem Inv.change' {cfg : Config} {strict : Bool} {cur cur' : List Task} {c c' : Client} (h : Inv cfg strict cur c) {id : Nat}
    {op op' : Op} {es : List Trace} (hg : c.ops.get id = some op) (hv : op'.view = op.view)
    (hc' : c' = { c with ops := c.ops.set id op', tasks := c'.tasks, log := c.log ++ es, publishes := c'.publishes
                         scheduled := c'.scheduled, clock := c'.clock })
    (hp : ∀ i ∈ c'.publishes, i ∈ c.publishes ∨ i = id ∧ op.body.kind = .request ∧ op.tracked = true ∧ id ∉ c.queue)
    (hcount : ∀ t : Task, t ≠ .destroy id → t ≠ .submit id → (cur' ++ c'.tasks).count t = (cur ++ c.tasks).count t)
    (hrun : ∀ j, j ≠ id → Task.submit j ∈ cur → Task.submit j ∈ cur')
    (he : OnlyAbout id es) (hid : IdOk strict cur' c' id)
    (hf : strict = true → c.phase ≠ .shuttingDown → id ∈ c.queue → op.body.kind = .request → op'.state ≠ .pendingDestroy) :
    Inv cfg strict cur' c' := by
  obtain ⟨v1, v2, v3⟩ := Op.view_eq hv
  have ho : c'.ops = c.ops.set id op' := by rw [hc']
  have hq : c'.queue = c.queue := by rw [hc']
  have hlog : c'.log = c.log ++ es := by rw [hc']
  have hnext : c'.nextId = c.nextId := by rw [hc']
  have hph : c'.phase = c.phase := by rw [hc']
  have hget : ∀ j, c'.ops.get j = if j = id then some op' else c.ops.get j := by intro j; rw [ho, AMap.get_set]
  have hback : ∀ j o', c'.ops.get j = some o' → ∃ o, c.ops.get j = some o ∧ o'.body = o.body ∧ o'.tracked = o.tracked ∧
      o'.inTables = o.inTables := by
    intro j o' hx
    rw [hget] at hx
    split at hx
    · rename_i e; subst e; cases hx; exact ⟨op, hg, v1, v2, v3⟩
    · exact ⟨o', hx, rfl, rfl, rfl⟩
  have hforth : ∀ j o, c.ops.get j = some o → ∃ o', c'.ops.get j = some o' ∧ o'.body = o.body ∧ o'.tracked = o.tracked ∧
      o'.inTables = o.inTables := by
    intro j o hx
    rw [hget]
    by_cases e : j = id
    · subst e; rw [hg] at hx; cases hx; exact ⟨op', if_pos rfl, v1, v2, v3⟩
    · exact ⟨o, by rw [if_neg e]; exact hx, rfl, rfl, rfl⟩
  have hk : ∀ k i, Known c k i → Known c' k i := fun k i hx => hx.mono (Nat.le_of_eq hnext.symm) (by rw [hq]; exact fun x => x)
    (by intro o' ho'; obtain ⟨o, a1, a2, a3, _⟩ := hback i o' ho'; exact ⟨o, a1, a2, by rw [a3]; exact fun x => x⟩)
  refine ⟨?_, ?_, ?_, ?_, ?_, ?_, ?_, ?_, ?_, ?_, ?_, ?_, ?_, ?_, ?_, ?_, ?_, ?_, ?_, ?_, ?_, ?_, ?_⟩
  · intro j
    by_cases hj : j = id
    · rw [hj]; exact hid
    · refine (h.ids j).of ?_ (hcount _ (by simp) (by simp [hj])) (hcount _ (by simp [hj]) (by simp)) ?_ ?_ (Nat.le_of_eq hnext.symm) (by rw [hq]; exact fun x => x) (hrun j hj)
      · rw [hget, if_neg hj]
      · rw [hlog, completions_append, he.completions hj]; rfl
      · intro r; rw [hlog]; exact he.submitted j r
  · rw [ho]; exact AMap.nodup_set h.nodup _ _
  · rw [hq]; exact h.queueNodup
  · rw [hq]
    intro j hj
    obtain ⟨o, a1, a2, a3⟩ := h.queue j hj
    obtain ⟨o', b1, b2, b3, b4⟩ := hforth j o a1
    exact ⟨o', b1, by rw [b3]; exact a2, by rw [b4]; exact a3⟩
  · rw [hq, hph]
    intro hs hact j hj o' r hx hb
    rw [hget] at hx
    split at hx
    · rename_i e
      subst e
      cases hx
      exact hf hs hact hj (by rw [← v1, hb]; rfl)
    · exact h.fresh hs hact j hj o' r hx hb
  · rw [hc']
    intro j hj
    obtain ⟨o, r, a1, a2, a3⟩ := h.timeouts j hj
    obtain ⟨o', b1, b2, b3, b4⟩ := hforth j o a1
    rw [ho] at b1
    exact ⟨o', r, b1, by rw [b2]; exact a2, by rw [b3]; exact a3⟩
  · intro t j hj
    rw [show c'.tokens = c.tokens by rw [hc']] at hj
    obtain ⟨o, r, a1, a2, a3, a4⟩ := h.tokens t j hj
    obtain ⟨o', b1, b2, b3, b4⟩ := hforth j o a1
    exact ⟨o', r, b1, by rw [b2]; exact a2, a3, by rw [b4]; exact a4⟩
  · intro j o' r hx hb hi
    obtain ⟨o, a1, a2, a3, a4⟩ := hback j o' hx
    rw [show c'.tokens = c.tokens by rw [hc']]
    exact h.tokens' j o r a1 (by rw [← a2]; exact hb) (by rw [← a4]; exact hi)
  · rw [show c'.tokens = c.tokens by rw [hc']]; exact h.tokensNodup
  · intro j o' hx hi
    obtain ⟨o, a1, a2, a3, a4⟩ := hback j o' hx
    rw [hq, a3]
    exact h.tables j o a1 (by rw [← a4]; exact hi)
  · rw [show c'.streams = c.streams by rw [hc']]
    intro e he i hi
    obtain ⟨o, a1, a2, a3⟩ := h.streams e he i hi
    obtain ⟨o', b1, b2, b3, b4⟩ := hforth i o a1
    exact ⟨o', b1, by rw [b2]; exact a2, by rw [b4]; exact a3⟩
  · rw [show c'.wildcards = c.wildcards by rw [hc']]
    intro e he i hi
    obtain ⟨o, a1, a2, a3⟩ := h.wildcards e he i hi
    obtain ⟨o', b1, b2, b3, b4⟩ := hforth i o a1
    exact ⟨o', b1, by rw [b2]; exact a2, by rw [b4]; exact a3⟩
  · rw [show c'.streams = c.streams by rw [hc']]; exact h.streamsNodup
  · intro i hi
    rcases hp i hi with hi | ⟨rfl, b1, b2, b3⟩
    · exact hk _ _ (h.publishes i hi)
    · refine hk _ _ ⟨?_, b3, ?_⟩
      · have := h.ids i
        unfold IdOk at this
        rw [hg] at this
        exact this.1
      · intro o ho2
        rw [hg] at ho2
        cases ho2
        exact ⟨b1, b2⟩
  · rw [show c'.paths = c.paths by rw [hc']]; exact h.pathsNodup
  · intro t
    rw [show c'.paths = c.paths by rw [hc'], ho, h.paths t]
    have := regs_set h.nodup (op' := op') hg t
    have hr : op'.regs t = op.regs t := by unfold Op.regs; rw [v1, v3]
    omega
  · rw [show c'.paths = c.paths by rw [hc']]; exact h.pathsPos
  · rw [show c'.paths = c.paths by rw [hc'], hlog]
    intro t e hx
    obtain ⟨i, r, a1, a2⟩ := h.origin t e hx
    exact ⟨i, r, by simp [a1], a2⟩
  · rw [hph, show c'.manager = c.manager by rw [hc']]; exact h.manager
  · rw [hph, show c'.manager = c.manager by rw [hc']]; exact fun hp => Sound.mono (h.kinds hp) hk
  · intro s hs
    refine Told.mono (h.told s ?_) hk
    rw [← List.count_pos_iff, ← hcount _ (by simp) (by simp), List.count_pos_iff]
    exact hs
  · rw [hcount _ (by simp) (by simp), hph]; exact h.initTask
  · rw [hcount _ (by simp) (by simp), hph, show c'.held = c.held by rw [hc']]; exact h.shutTask

/-- An operation changes without a change of its place in the tables. -/
theorem Inv.change {cfg : Config} {strict : Bool} {cur : List Task} {c c' : Client} (h : Inv cfg strict cur c) {id : Nat}
    {op op' : Op} {l : List Task} {es : List Trace} (hg : c.ops.get id = some op) (hv : op'.view = op.view)
    (hc' : c' = { c with ops := c.ops.set id op', tasks := c.tasks ++ l, log := c.log ++ es, publishes := c'.publishes
                         scheduled := c'.scheduled, clock := c'.clock })
    (hp : ∀ i ∈ c'.publishes, i ∈ c.publishes ∨ i = id ∧ op.body.kind = .request ∧ op.tracked = true ∧ id ∉ c.queue)
    (hl : ∀ t ∈ l, t = .destroy id ∨ t = .submit id) (he : OnlyAbout id es) (hid : IdOk strict cur c' id)
    (hf : strict = true → c.phase ≠ .shuttingDown → id ∈ c.queue → op.body.kind = .request → op'.state ≠ .pendingDestroy) :
    Inv cfg strict cur c' := by
  have ht : c'.tasks = c.tasks ++ l := by rw [hc']
  refine h.change' hg hv (by rw [ht]; exact hc') hp ?_ (fun _ _ x => x) he hid hf
  intro t hne hne'
  have : l.count t = 0 := by
    rw [List.count_eq_zero]
    intro hm
    rcases hl t hm with h | h
    · exact hne h
    · exact hne' h
  rw [ht]
  simp only [List.count_append, this]
  omega

end Mqtt.RrClient
