import Verif.Lemmas.RrClientOps

/-! The functions of the request-response client keep the invariant and do not fault: events and the queue. -/
namespace Mqtt.RrClient

open Mqtt.Rr (Kind Status StatusType Action Acquired Manager matchesType)

theorem mem_statuses {log : List Rr.Trace} {s : Status} : s ∈ statuses log ↔ Rr.Trace.status s ∈ log := by
  unfold statuses
  rw [List.mem_filterMap]
  constructor
  · rintro ⟨e, he, hx⟩
    cases e <;> simp at hx
    subst hx
    exact he
  · intro h
    exact ⟨_, h, rfl⟩

theorem absorb_ok {cfg : Config} {strict : Bool} {cur : List Task} {c : Client} (h : Inv cfg strict cur c)
    (hp : c.phase = .active) {m : Manager} (hr : Rr.Reachable cfg.manager m) (hc : m.closed = false)
    (hs : Rr.Sound (Known c) m.records) (he : Rr.Ext (Known c) c.manager.log m.log) :
    ∃ l, c.absorb m = .ok { c with manager := m, tasks := c.tasks ++ l } ∧
      Inv cfg strict cur { c with manager := m, tasks := c.tasks ++ l } := by
  obtain ⟨new, e1, e2⟩ := he
  refine ⟨(statuses new).map .status, ?_, ?_⟩
  · simp only [Client.absorb, e1, List.drop_left, hp]
    simp
  · refine h.env (l := (statuses new).map .status) (es := []) (by simp) ?_ .nil (fun _ hi => hi) h.publishes
      (fun _ => ⟨⟨hr, hc⟩, hs⟩)
    intro t ht
    obtain ⟨s, hs, rfl⟩ := List.mem_map.1 ht
    exact ⟨s, rfl, e2 s (mem_statuses.1 hs)⟩

/-- The manager takes a step. -/
theorem manage_ok {cfg : Config} {strict : Bool} {cur : List Task} {c : Client} (h : Inv cfg strict cur c)
    (hp : c.phase = .active) {e : Rr.Event} {m : Manager} (hen : Rr.Enabled c.manager e)
    (hm : Rr.step cfg.manager c.manager e = .ok m) (hc : m.closed = false)
    (hs : Rr.Sound (Known c) m.records ∧ Rr.Ext (Known c) c.manager.log m.log) :
    ∃ l, c.absorb m = .ok { c with manager := m, tasks := c.tasks ++ l } ∧
      Inv cfg strict cur { c with manager := m, tasks := c.tasks ++ l } :=
  absorb_ok h hp (.step (h.manager hp).1 hen hm) hc hs.1 hs.2

/-- A change of an operation that is not seen by others. -/
theorem Inv.local {cfg : Config} {strict : Bool} {cur : List Task} {c : Client} (h : Inv cfg strict cur c) {id : Nat}
    {op op' : Op} (hg : c.ops.get id = some op) (hv : op'.view = op.view) (hr : op'.refs = op.refs)
    (hh : op'.held = op.held) (ha : op'.activated = op.activated)
    (hs : op.state ≠ .pendingDestroy) (hs' : op'.state ≠ .pendingDestroy) {es : List Trace} (hes : Neutral es) :
    Inv cfg strict cur { c with ops := c.ops.set id op', log := c.log ++ es } := by
  obtain ⟨v1, v2, v3⟩ := Op.view_eq hv
  refine h.change (op' := op') (l := []) (es := es) hg hv (by simp) (fun i hi => .inl hi) (by simp) (hes.only id) ?_
    (fun _ _ _ _ => hs')
  have hcomp : completions (c.log ++ es) id = completions c.log id := by
    rw [completions_append, hes.completions]; rfl
  unfold IdOk
  simp only [AMap.get_set_same, hcomp, v1, v2]
  cases hb : op.body with
  | request r =>
    obtain ⟨i1, i2, i3, i4, i5⟩ := idOk_request (h.ids id) hg hb
    simp only [(hes.only id).submitted]
    refine ⟨i1, i2, i3, i4, ?_⟩
    rcases i5 with ⟨a1, a2, a3, a4, a5, a6⟩ | ⟨a1, a2, a3, a4, a5⟩ | ⟨a1, a2, a3, a4, a5, a6⟩
    · exact .waiting a1 a2 (by rw [hr]; exact a3) hs' a5 (by rw [v2]; exact a6)
    · refine .completed a1 (by rw [hr]; exact a2) a3 a4 ?_
      rcases a5 with a5 | a5
      · exact absurd a5 hs
      · exact .inr a5
    · exact absurd a5 hs
  | stream f =>
    obtain ⟨i1, i2, i3, i4⟩ := idOk_stream (h.ids id) hg hb
    simp only [(hes.only id).wasSubmitted]
    refine ⟨i1, i2, i3, i4.submit, by rw [hr, hh]; exact i4.refs, by rw [hr]; exact i4.destroy, ?_, ?_, i4.none⟩
    · rw [ha]; exact i4.activated
    · rw [ha, v2]; exact i4.tracked

/-- A change of a stream that is not seen by others. -/
theorem Inv.localStream {cfg : Config} {strict : Bool} {cur : List Task} {c : Client} (h : Inv cfg strict cur c) {id : Nat}
    {op op' : Op} (hg : c.ops.get id = some op) (hk : op.body.kind = .stream) (hv : op'.view = op.view)
    (hr : op'.refs = op.refs) (hh : op'.held = op.held) (ha : op'.activated = op.activated) {es : List Trace}
    (hes : Neutral es) :
    Inv cfg strict cur { c with ops := c.ops.set id op', log := c.log ++ es } := by
  obtain ⟨v1, v2, v3⟩ := Op.view_eq hv
  refine h.change (op' := op') (l := []) (es := es) hg hv (by simp) (fun i hi => .inl hi) (by simp) (hes.only id) ?_
    (fun _ _ _ hx => by rw [hk] at hx; cases hx)
  have hcomp : completions (c.log ++ es) id = completions c.log id := by
    rw [completions_append, hes.completions]; rfl
  unfold IdOk
  simp only [AMap.get_set_same, hcomp, v1, v2]
  cases hb : op.body with
  | request r => rw [hb] at hk; cases hk
  | stream f =>
    obtain ⟨i1, i2, i3, i4⟩ := idOk_stream (h.ids id) hg hb
    simp only [(hes.only id).wasSubmitted]
    refine ⟨i1, i2, i3, i4.submit, by rw [hr, hh]; exact i4.refs, by rw [hr]; exact i4.destroy, ?_, ?_, i4.none⟩
    · rw [ha]; exact i4.activated
    · rw [ha, v2]; exact i4.tracked

theorem makeRequest_ok {cfg : Config} {strict : Bool} {cur : List Task} {c : Client} (h : Inv cfg strict cur c) {id : Nat}
    {op : Op} (hg : c.ops.get id = some op) (hk : Known c .request id) (env : Env) :
    ∃ c', c.makeRequest env id = .ok c' ∧ Inv cfg strict cur c' ∧ Steady c c' := by
  obtain ⟨k1, k2⟩ := hk.2.2 op hg
  simp only [Client.makeRequest, hg]
  split
  · rename_i hb; rw [hb] at k1; cases k1
  · rename_i r hb
    split
    · refine ⟨_, rfl, ?_, ⟨rfl, rfl, rfl, rfl, rfl, rfl, rfl, rfl, rfl, fun _ => rfl⟩⟩
      refine h.env (l := []) (es := [.published id r.topic r.payload]) (by simp) (by simp) ?_ (fun _ hi => hi) ?_
        (fun hx => ⟨h.manager hx, h.kinds hx⟩)
      · intro e he; cases List.mem_singleton.1 he; exact ⟨by simp, fun _ => rfl⟩
      · intro i hi
        rcases List.mem_append.1 hi with hi | hi
        · exact h.publishes i hi
        · cases List.mem_singleton.1 hi; exact hk
    · exact failRequest_ok h hg k1 (.inl k2) (fun _ _ => hk.2.1) _

theorem requestStatus_ok {cfg : Config} {strict : Bool} {cur : List Task} {c : Client} (h : Inv cfg strict cur c)
    {id : Nat} {op : Op} (hg : c.ops.get id = some op) (hk : Known c .request id) (env : Env) {t : StatusType}
    (ht : t = .subscribeSuccess ∨ t = .subscribeFailure ∨ t = .subscriptionEnded) :
    ∃ c', c.requestStatus env id t = .ok c' ∧ Inv cfg strict cur c' ∧ Steady c c' := by
  obtain ⟨k1, k2⟩ := hk.2.2 op hg
  have hf := failRequest_ok h hg k1 (.inl k2) (fun _ _ => hk.2.1) .subscribeFailure
  have hsucc : ∃ c', c.requestStatus env id .subscribeSuccess = .ok c' ∧ Inv cfg strict cur c' ∧ Steady c c' := by
    simp only [Client.requestStatus, hg]
    split
    · rename_i hs
      split
      · have h1 := h.local (op' := { op with pendingSubs := 0, state := .pendingResponse }) hg rfl rfl rfl rfl
          (by rw [hs]; simp) (by simp) .nil
        simp only [List.append_nil] at h1
        have hst : Steady c { c with ops := c.ops.set id { op with pendingSubs := 0, state := .pendingResponse } } := by
          have := Steady.set (l := []) (es := []) (p := c.publishes) (op' := { op with pendingSubs := 0, state := .pendingResponse }) hg rfl
          simpa using this
        obtain ⟨c', a1, a2, a3⟩ := makeRequest_ok (id := id) (op := { op with pendingSubs := 0, state := .pendingResponse })
          h1 (by simp) ⟨hk.1, hk.2.1, by simp [k1, k2]⟩ env
        exact ⟨c', a1, a2, hst.trans a3⟩
      · have h1 := h.local (op' := { op with pendingSubs := decrement op.pendingSubs }) hg rfl rfl rfl rfl
          (by rw [hs]; simp) (by simp [hs]) .nil
        simp only [List.append_nil] at h1
        refine ⟨_, rfl, h1, ?_⟩
        have := Steady.set (l := []) (es := []) (p := c.publishes) (op' := { op with pendingSubs := decrement op.pendingSubs }) hg rfl
        simpa using this
    · exact ⟨c, rfl, h, .refl⟩
  rcases ht with rfl | rfl | rfl
  · exact hsucc
  · simp only [Client.requestStatus, hg]; exact hf
  · simp only [Client.requestStatus, hg]; exact hf

theorem neutral_status (id : Nat) (s : StreamStatus) : Neutral [.status id s] := by
  intro e he; cases List.mem_singleton.1 he; exact ⟨by simp, fun _ => rfl⟩

theorem streamStatus_ok {cfg : Config} {strict : Bool} {cur : List Task} {c : Client} (h : Inv cfg strict cur c)
    {id : Nat} {op : Op} (hg : c.ops.get id = some op) (hk : Known c .stream id) {t : StatusType}
    (ht : t = .established ∨ t = .lost ∨ t = .halted) :
    ∃ c', c.streamStatus id t = .ok c' ∧ Inv cfg strict cur c' ∧ Steady c c' := by
  obtain ⟨k1, k2⟩ := hk.2.2 op hg
  rcases ht with rfl | rfl | rfl
  · simp only [Client.streamStatus, hg]
    have hv : (if op.state = .pendingSubscription then { op with state := .subscribed } else op).view = op.view := by
      split <;> rfl
    refine ⟨_, rfl, h.localStream hg k1 hv (by split <;> rfl) (by split <;> rfl) (by split <;> rfl) (neutral_status _ _), ?_⟩
    have := Steady.set (l := []) (es := [.status id .established]) (p := c.publishes) hg hv
    simpa using this
  · simp only [Client.streamStatus, hg]
    exact ⟨_, rfl, h.say (neutral_status _ _), .say _⟩
  · simp only [Client.streamStatus, hg]
    exact halt_ok h hg k1 _

theorem onStatus_ok {cfg : Config} {strict : Bool} {cur : List Task} {c : Client} (h : Inv cfg strict cur c) (env : Env)
    (now : Nat) {s : Status} (hs : Rr.Told (Known c) s) :
    ∃ c', c.onStatus env now s = .ok c' ∧ Inv cfg strict cur c' ∧ Steady c c' := by
  obtain ⟨w1, w2⟩ := wake_ok h now
  obtain ⟨t, f, i⟩ := s
  have key : ∀ k, matchesType k t = true → Known c k i → t ≠ .empty → t ≠ .unsubscribeComplete → ∀ op, c.ops.get i = some op →
      ∃ c', (match t with
        | .subscribeSuccess | .subscribeFailure | .subscriptionEnded => c.requestStatus env i t
        | _ => c.streamStatus i t) = .ok c' ∧ Inv cfg strict cur c' ∧ Steady c c' := by
    intro k hk hkn h1 h2 op hg
    cases t with
    | empty => exact absurd rfl h1
    | unsubscribeComplete => exact absurd rfl h2
    | subscribeSuccess => cases k <;> first | exact requestStatus_ok h hg hkn env (by simp) | cases hk
    | subscribeFailure => cases k <;> first | exact requestStatus_ok h hg hkn env (by simp) | cases hk
    | subscriptionEnded => cases k <;> first | exact requestStatus_ok h hg hkn env (by simp) | cases hk
    | established => cases k <;> first | exact streamStatus_ok h hg hkn (by simp) | cases hk
    | lost => cases k <;> first | exact streamStatus_ok h hg hkn (by simp) | cases hk
    | halted => cases k <;> first | exact streamStatus_ok h hg hkn (by simp) | cases hk
  unfold Client.onStatus
  split
  · exact ⟨_, rfl, w1, w2⟩
  · exact ⟨_, rfl, w1, w2⟩
  · rename_i h1 h2
    split
    · exact ⟨c, rfl, h, .refl⟩
    · rename_i op hg
      split
      · rcases hs with hs | hs | ⟨k, hk, hkn⟩
        · exact absurd hs h2
        · exact absurd hs h1
        · exact key k hk hkn h2 h1 op hg
      · exact ⟨c, rfl, h, .refl⟩

theorem addPaths_refs (t : Bytes) : ∀ (ps : List Path) (m : AMap Bytes PathEntry),
    (((addPaths ps m).get t).map PathEntry.refs).getD 0 = ((m.get t).map PathEntry.refs).getD 0 + (ps.map Path.topic).count t := by
  intro ps
  induction ps with
  | nil => intro m; simp [addPaths]
  | cons p ps ih =>
    intro m
    simp only [addPaths, ih, AMap.get_set, List.map_cons, List.count_cons]
    by_cases e : t = p.topic
    · subst e
      rw [if_pos rfl]
      cases hg : m.get p.topic with
      | none => simp; omega
      | some x => simp; omega
    · rw [if_neg e]
      have : (p.topic == t) = false := by rw [beq_eq_false_iff_ne]; exact fun h => e h.symm
      simp [this]

theorem addPaths_nodup : ∀ (ps : List Path) {m : AMap Bytes PathEntry}, m.Nodup → (addPaths ps m).Nodup := by
  intro ps
  induction ps with
  | nil => intro m h; exact h
  | cons p ps ih => intro m h; exact ih (AMap.nodup_set h _ _)

theorem addPaths_entry : ∀ (ps : List Path) {m : AMap Bytes PathEntry} {t : Bytes} {e : PathEntry},
    (∀ t e, m.get t = some e → e.refs ≠ 0) → (addPaths ps m).get t = some e →
    e.refs ≠ 0 ∧ ((∃ e0, m.get t = some e0 ∧ e0.tokenPath = e.tokenPath) ∨ m.get t = none ∧ ⟨t, e.tokenPath⟩ ∈ ps) := by
  intro ps
  induction ps with
  | nil => intro m t e hm h; exact ⟨hm t e h, .inl ⟨e, h, rfl⟩⟩
  | cons p ps ih =>
    intro m t e hm h
    simp only [addPaths] at h
    obtain ⟨a1, a2⟩ := ih (by
      intro t' e' hx
      rw [AMap.get_set] at hx
      split at hx
      · cases hx
        split
        · simp
        · simp
      · exact hm t' e' hx) h
    refine ⟨a1, ?_⟩
    by_cases et : t = p.topic
    · subst et
      rcases a2 with ⟨e0, b1, b2⟩ | ⟨b1, _⟩
      · rw [AMap.get_set_same] at b1
        cases hg : m.get p.topic with
        | some x =>
          rw [hg] at b1
          cases b1
          exact .inl ⟨x, rfl, b2⟩
        | none =>
          rw [hg] at b1
          cases b1
          exact .inr ⟨rfl, by simp [← b2]⟩
      · rw [AMap.get_set_same] at b1; cases b1
    · rw [AMap.get_set, if_neg et] at a2
      rcases a2 with a2 | ⟨b1, b2⟩
      · exact .inl a2
      · exact .inr ⟨b1, by simp [b2]⟩

theorem removePaths_refs (t : Bytes) : ∀ (ps : List Path) (m : AMap Bytes PathEntry),
    (((removePaths ps m).get t).map PathEntry.refs).getD 0 = ((m.get t).map PathEntry.refs).getD 0 - (ps.map Path.topic).count t := by
  intro ps
  induction ps with
  | nil => intro m; simp [removePaths]
  | cons p ps ih =>
    intro m
    simp only [removePaths, ih, List.map_cons, List.count_cons]
    have key : (((match m.get p.topic with
        | none => m
        | some e => if e.refs = 1 then m.del p.topic else m.set p.topic { e with refs := e.refs - 1 }) : AMap Bytes PathEntry).get t
          |>.map PathEntry.refs).getD 0 = ((m.get t).map PathEntry.refs).getD 0 - (if (p.topic == t) = true then 1 else 0) := by
      cases hg : m.get p.topic with
      | none =>
        simp only
        by_cases e : p.topic = t
        · subst e; simp [hg]
        · have : (p.topic == t) = false := by rw [beq_eq_false_iff_ne]; exact e
          simp [this]
      | some x =>
        simp only
        by_cases e : p.topic = t
        · subst e
          by_cases e1 : x.refs = 1
          · simp [hg, e1]
          · simp [hg, e1]
        · have hb : (p.topic == t) = false := by rw [beq_eq_false_iff_ne]; exact e
          have e' : ¬ t = p.topic := fun h => e h.symm
          by_cases e1 : x.refs = 1
          · simp [e1, AMap.get_del, e', hb]
          · simp [e1, AMap.get_set, e', hb]
    refine Eq.trans (congrArg (· - List.count t (ps.map Path.topic)) key) ?_
    omega

theorem removePaths_nodup : ∀ (ps : List Path) {m : AMap Bytes PathEntry}, m.Nodup → (removePaths ps m).Nodup := by
  intro ps
  induction ps with
  | nil => intro m h; exact h
  | cons p ps ih =>
    intro m h
    simp only [removePaths]
    apply ih
    split
    · exact h
    · split
      · exact AMap.nodup_del h _
      · exact AMap.nodup_set h _ _

theorem removePaths_entry : ∀ (ps : List Path) {m : AMap Bytes PathEntry} {t : Bytes} {e : PathEntry},
    (∀ t e, m.get t = some e → e.refs ≠ 0) → (removePaths ps m).get t = some e →
    e.refs ≠ 0 ∧ ∃ e0, m.get t = some e0 ∧ e0.tokenPath = e.tokenPath := by
  intro ps
  induction ps with
  | nil => intro m t e hm h; exact ⟨hm t e h, e, h, rfl⟩
  | cons p ps ih =>
    intro m t e hm h
    simp only [removePaths] at h
    cases hg : m.get p.topic with
    | none =>
      rw [hg] at h
      exact ih hm h
    | some x =>
      rw [hg] at h
      simp only at h
      by_cases e1 : x.refs = 1
      · rw [if_pos e1] at h
        obtain ⟨a1, e0, a2, a3⟩ := ih (by
          intro t' e' hx
          rw [AMap.get_del] at hx
          split at hx
          · cases hx
          · exact hm t' e' hx) h
        refine ⟨a1, e0, ?_, a3⟩
        rw [AMap.get_del] at a2
        split at a2
        · cases a2
        · exact a2
      · rw [if_neg e1] at h
        have := hm _ _ hg
        obtain ⟨a1, e0, a2, a3⟩ := ih (by
          intro t' e' hx
          rw [AMap.get_set] at hx
          split at hx
          · cases hx
            simp only
            omega
          · exact hm t' e' hx) h
        refine ⟨a1, ?_⟩
        rw [AMap.get_set] at a2
        split at a2
        · rename_i et
          subst et
          cases a2
          exact ⟨x, hg, a3⟩
        · exact ⟨e0, a2, a3⟩

/-- Operations leave the queue. -/
theorem Inv.pop {cfg : Config} {strict : Bool} {cur : List Task} {c : Client} (h : Inv cfg strict cur c) {q : List Nat}
    (hq : q.Sublist c.queue) : Inv cfg strict cur { c with queue := q } := by
  have hsub : ∀ i, i ∈ q → i ∈ c.queue := fun i hi => hq.subset hi
  have hk : ∀ k i, Known c k i → Known { c with queue := q } k i := fun k i hx =>
    ⟨hx.1, fun hy => hx.2.1 (hsub i hy), hx.2.2⟩
  exact { h with
    ids := fun id => (h.ids id).of rfl rfl rfl rfl (fun _ => Iff.rfl) (Nat.le_refl _) (hsub id) (fun x => x)
    queueNodup := h.queueNodup.sublist hq
    queue := fun id hid => h.queue id (hsub id hid)
    fresh := fun hs ha id hid => h.fresh hs ha id (hsub id hid)
    tables := fun id op h1 h2 => ⟨(h.tables id op h1 h2).1, fun hy => (h.tables id op h1 h2).2 (hsub id hy)⟩
    publishes := fun i hi => hk _ _ (h.publishes i hi)
    kinds := fun hp => Sound.mono (h.kinds hp) hk
    told := fun s hs => Told.mono (h.told s hs) hk }

theorem getD_mem {m : AMap Bytes (List Nat)} {f : Bytes} {i : Nat} (h : i ∈ (m.get f).getD []) :
    ∃ ids, (f, ids) ∈ m ∧ i ∈ ids := by
  cases hg : m.get f with
  | none => rw [hg] at h; cases h
  | some ids => rw [hg] at h; exact ⟨ids, AMap.get_some_mem hg, h⟩

theorem Body.cases (b : Body) : (∃ f, b = .stream f) ∨ ∃ r, b = .request r := by
  cases b with
  | stream f => exact .inl ⟨f, rfl⟩
  | request r => exact .inr ⟨r, rfl⟩

/-- An operation enters the tables. -/
theorem Inv.enter {cfg : Config} {strict : Bool} {cur : List Task} {c c' : Client} (h : Inv cfg strict cur c) {id : Nat}
    {op : Op} (hg : c.ops.get id = some op) (ht : op.tracked = true) (hi : op.inTables = false) (hq : id ∉ c.queue)
    (htok : ∀ r, op.body = .request r → c.tokens.get r.token = none) {s : OpState} {es : List Trace} (hes : Neutral es)
    (hc' : c' = { c.addToTables id op with ops := c.ops.set id { op with inTables := true, state := s }, log := c.log ++ es })
    (hs : op.body.kind = .request → s = op.state ∨
      completions c.log id ≤ 1 ∧ s ≠ .pendingDestroy ∧ (strict = true → op.state ≠ .pendingDestroy)) :
    Inv cfg strict cur c' := by
  have ho : c'.ops = c.ops.set id { op with inTables := true, state := s } := by rw [hc']
  have hlog : c'.log = c.log ++ es := by rw [hc']
  have hsame : c'.queue = c.queue ∧ c'.tasks = c.tasks ∧ c'.nextId = c.nextId ∧ c'.phase = c.phase ∧
      c'.timeouts = c.timeouts ∧ c'.publishes = c.publishes ∧ c'.manager = c.manager ∧ c'.held = c.held := by
    rw [hc']
    unfold Client.addToTables
    cases op.body with
    | request r => exact ⟨rfl, rfl, rfl, rfl, rfl, rfl, rfl, rfl⟩
    | stream f => simp only; split <;> exact ⟨rfl, rfl, rfl, rfl, rfl, rfl, rfl, rfl⟩
  obtain ⟨eq1, eq2, eq3, eq4, eq5, eq6, eq7, eq8⟩ := hsame
  have hget : ∀ j, c'.ops.get j = if j = id then some { op with inTables := true, state := s } else c.ops.get j := by
    intro j; rw [ho, AMap.get_set]
  have hback : ∀ j o', c'.ops.get j = some o' → ∃ o, c.ops.get j = some o ∧ o'.body = o.body ∧ o'.tracked = o.tracked := by
    intro j o' hx
    rw [hget] at hx
    split at hx
    · rename_i e; subst e; cases hx; exact ⟨op, hg, rfl, rfl⟩
    · exact ⟨o', hx, rfl, rfl⟩
  have hforth : ∀ j o, c.ops.get j = some o → ∃ o', c'.ops.get j = some o' ∧ o'.body = o.body ∧ o'.tracked = o.tracked ∧
      (o.inTables = true → o'.inTables = true) := by
    intro j o hx
    rw [hget]
    by_cases e : j = id
    · subst e; rw [hg] at hx; cases hx; exact ⟨_, if_pos rfl, rfl, rfl, fun _ => rfl⟩
    · exact ⟨o, by rw [if_neg e]; exact hx, rfl, rfl, fun x => x⟩
  have hk : ∀ k i, Known c k i → Known c' k i := fun k i hx => hx.mono (Nat.le_of_eq eq3.symm) (by rw [eq1]; exact fun x => x)
    (by intro o' ho'; obtain ⟨o, a1, a2, a3⟩ := hback i o' ho'; exact ⟨o, a1, a2, by rw [a3]; exact fun x => x⟩)
  have hstr : ∀ f, op.body = .stream f →
      c'.tokens = c.tokens ∧ c'.paths = c.paths ∧
      ((c'.streams = c.streams ∧ c'.wildcards = c.wildcards.set f ((c.wildcards.get f).getD [] ++ [id])) ∨
       (c'.wildcards = c.wildcards ∧ c'.streams = c.streams.set f ((c.streams.get f).getD [] ++ [id]))) := by
    intro f hb
    rw [hc']
    unfold Client.addToTables
    rw [hb]
    simp only
    split
    · exact ⟨rfl, rfl, .inl ⟨rfl, rfl⟩⟩
    · exact ⟨rfl, rfl, .inr ⟨rfl, rfl⟩⟩
  have hreq : ∀ r, op.body = .request r →
      c'.tokens = c.tokens.set r.token id ∧ c'.paths = addPaths r.paths c.paths ∧ c'.streams = c.streams ∧
      c'.wildcards = c.wildcards := by
    intro r hb
    rw [hc']
    unfold Client.addToTables
    rw [hb]
    exact ⟨rfl, rfl, rfl, rfl⟩
  have hid : IdOk strict cur c' id := by
    have hcomp : completions c'.log id = completions c.log id := by
      rw [hlog, completions_append, hes.completions]; rfl
    unfold IdOk
    rw [hget, if_pos rfl, eq2, hcomp]
    simp only
    cases hb : op.body with
    | request r =>
      obtain ⟨i1, i2, i3, i4, i5⟩ := idOk_request (h.ids id) hg hb
      simp only [hlog, (hes.only id).submitted, eq1, eq3]
      refine ⟨i1, i2, i3, i4, ?_⟩
      have hs' := hs (by rw [hb]; rfl)
      rcases i5 with ⟨a1, a2, a3, a4, a5, a6⟩ | ⟨a1, a2, a3, a4, a5⟩ | ⟨a1, a2, a3, a4, a5, a6⟩
      · refine .waiting a1 a2 a3 ?_ a5 a6
        rcases hs' with rfl | ⟨_, b, _⟩
        · exact a4
        · exact b
      · refine .completed a1 a2 a3 a4 ?_
        rcases hs' with rfl | ⟨_, b, b2⟩
        · exact a5
        · cases hst : strict with
          | true =>
            rcases a5 with a5 | ⟨a5, _⟩
            · exact absurd a5 (b2 hst)
            · rw [hst] at a5; cases a5
          | false => exact .inr ⟨rfl, hq, i2 ht⟩
      · rcases hs' with rfl | ⟨b, _⟩
        · exact .twice a1 a2 a3 a4 a5 a6
        · omega
    | stream f =>
      obtain ⟨i1, i2, i3, i4⟩ := idOk_stream (h.ids id) hg hb
      simp only [hlog, (hes.only id).wasSubmitted, eq3]
      exact ⟨i1, i2, i3, i4.submit, i4.refs, i4.destroy, i4.activated, i4.tracked, i4.none⟩
  refine ⟨?_, ?_, ?_, ?_, ?_, ?_, ?_, ?_, ?_, ?_, ?_, ?_, ?_, ?_, ?_, ?_, ?_, ?_, ?_, ?_, ?_, ?_, ?_⟩
  · intro j
    by_cases hj : j = id
    · rw [hj]; exact hid
    · refine (h.ids j).of ?_ (by rw [eq2]) (by rw [eq2]) ?_ ?_ (Nat.le_of_eq eq3.symm) (by rw [eq1]; exact fun x => x) (fun x => x)
      · rw [hget, if_neg hj]
      · rw [hlog, completions_append, hes.completions]; rfl
      · intro r; rw [hlog]; exact (hes.only j).submitted j r
  · rw [ho]; exact AMap.nodup_set h.nodup _ _
  · rw [eq1]; exact h.queueNodup
  · rw [eq1]
    intro j hj
    have : j ≠ id := fun e => hq (e ▸ hj)
    rw [hget, if_neg this]
    exact h.queue j hj
  · rw [eq1, eq4]
    intro h1 h2 j hj
    have : j ≠ id := fun e => hq (e ▸ hj)
    rw [hget, if_neg this]
    exact h.fresh h1 h2 j hj
  · rw [eq5]
    intro j hj
    obtain ⟨o, r, a1, a2, a3⟩ := h.timeouts j hj
    obtain ⟨o', b1, b2, b3, b4⟩ := hforth j o a1
    exact ⟨o', r, b1, by rw [b2]; exact a2, by rw [b3]; exact a3⟩
  · intro t j hj
    have old : c.tokens.get t = some j → ∃ op r, c'.ops.get j = some op ∧ op.body = .request r ∧ r.token = t ∧ op.inTables = true := by
      intro hj
      obtain ⟨o, r, a1, a2, a3, a4⟩ := h.tokens t j hj
      obtain ⟨o', b1, b2, b3, b4⟩ := hforth j o a1
      exact ⟨o', r, b1, by rw [b2]; exact a2, a3, b4 a4⟩
    cases hb : op.body with
    | stream f => rw [(hstr f hb).1] at hj; exact old hj
    | request r =>
      rw [(hreq r hb).1, AMap.get_set] at hj
      split at hj
      · rename_i e
        cases hj
        exact ⟨{ op with inTables := true, state := s }, r, by rw [hget, if_pos rfl], hb, e.symm, rfl⟩
      · exact old hj
  · intro j o' r hx hbo hin
    rw [hget] at hx
    split at hx
    · rename_i e
      subst e
      cases hx
      rw [(hreq r hbo).1, AMap.get_set_same]
    · have := h.tokens' j o' r hx hbo hin
      cases hb : op.body with
      | stream f => rw [(hstr f hb).1]; exact this
      | request r' =>
        rw [(hreq r' hb).1, AMap.get_set]
        split
        · rename_i e
          rw [e, htok r' hb] at this
          cases this
        · exact this
  · cases hb : op.body with
    | stream f => rw [(hstr f hb).1]; exact h.tokensNodup
    | request r => rw [(hreq r hb).1]; exact AMap.nodup_set h.tokensNodup _ _
  · intro j o' hx hin
    rw [hget] at hx
    rw [eq1]
    split at hx
    · rename_i e
      subst e
      cases hx
      exact ⟨ht, hq⟩
    · exact h.tables j o' hx hin
  · have old : ∀ e ∈ c.streams, ∀ i ∈ e.2, ∃ op, c'.ops.get i = some op ∧ op.body = .stream e.1 ∧ op.inTables = true := by
      intro e he i hi
      obtain ⟨o, a1, a2, a3⟩ := h.streams e he i hi
      obtain ⟨o', b1, b2, b3, b4⟩ := hforth i o a1
      exact ⟨o', b1, by rw [b2]; exact a2, b4 a3⟩
    cases hb : op.body with
    | request r => rw [(hreq r hb).2.2.1]; exact old
    | stream f =>
      rcases (hstr f hb).2.2 with ⟨e1, _⟩ | ⟨_, e1⟩
      · rw [e1]; exact old
      · rw [e1]
        intro e he i hi
        rcases List.mem_cons.1 he with rfl | he
        · rcases List.mem_append.1 hi with hi | hi
          · obtain ⟨ids, m1, m2⟩ := getD_mem hi
            exact old _ m1 i m2
          · cases List.mem_singleton.1 hi
            exact ⟨{ op with inTables := true, state := s }, by rw [hget, if_pos rfl], hb, rfl⟩
        · exact old e (List.mem_filter.1 he).1 i hi
  · have old : ∀ e ∈ c.wildcards, ∀ i ∈ e.2, ∃ op, c'.ops.get i = some op ∧ op.body = .stream e.1 ∧ op.inTables = true := by
      intro e he i hi
      obtain ⟨o, a1, a2, a3⟩ := h.wildcards e he i hi
      obtain ⟨o', b1, b2, b3, b4⟩ := hforth i o a1
      exact ⟨o', b1, by rw [b2]; exact a2, b4 a3⟩
    cases hb : op.body with
    | request r => rw [(hreq r hb).2.2.2]; exact old
    | stream f =>
      rcases (hstr f hb).2.2 with ⟨_, e1⟩ | ⟨e1, _⟩
      · rw [e1]
        intro e he i hi
        rcases List.mem_cons.1 he with rfl | he
        · rcases List.mem_append.1 hi with hi | hi
          · obtain ⟨ids, m1, m2⟩ := getD_mem hi
            exact old _ m1 i m2
          · cases List.mem_singleton.1 hi
            exact ⟨{ op with inTables := true, state := s }, by rw [hget, if_pos rfl], hb, rfl⟩
        · exact old e (List.mem_filter.1 he).1 i hi
      · rw [e1]; exact old
  · cases hb : op.body with
    | request r => rw [(hreq r hb).2.2.1]; exact h.streamsNodup
    | stream f =>
      rcases (hstr f hb).2.2 with ⟨e1, _⟩ | ⟨_, e1⟩
      · rw [e1]; exact h.streamsNodup
      · rw [e1]; exact AMap.nodup_set h.streamsNodup _ _
  · rw [eq6]; exact fun i hi => hk _ _ (h.publishes i hi)
  · cases hb : op.body with
    | stream f => rw [(hstr f hb).2.1]; exact h.pathsNodup
    | request r => rw [(hreq r hb).2.1]; exact addPaths_nodup _ h.pathsNodup
  · intro t
    have hr := regs_set h.nodup (op' := { op with inTables := true, state := s }) hg t
    have hold : op.regs t = 0 := by unfold Op.regs; rw [hi]; rfl
    rw [ho]
    rcases Body.cases op.body with ⟨f, hb⟩ | ⟨r, hb⟩
    · have hnew : Op.regs t { op with inTables := true, state := s } = 0 := by
        unfold Op.regs; simp [hb, Body.topics]
      rw [(hstr f hb).2.1, h.paths t]
      omega
    · have hnew : Op.regs t { op with inTables := true, state := s } = (r.paths.map Path.topic).count t := by
        unfold Op.regs; simp [hb, Body.topics]
      rw [(hreq r hb).2.1, addPaths_refs, h.paths t]
      omega
  · cases hb : op.body with
    | stream f => rw [(hstr f hb).2.1]; exact h.pathsPos
    | request r =>
      rw [(hreq r hb).2.1]
      exact fun t e hx => (addPaths_entry r.paths h.pathsPos hx).1
  · have old : ∀ t e, c.paths.get t = some e → ∃ id r, Trace.submitted id r ∈ c'.log ∧ ⟨t, e.tokenPath⟩ ∈ r.paths := by
      intro t e hx
      obtain ⟨i, r, a1, a2⟩ := h.origin t e hx
      exact ⟨i, r, by rw [hlog]; simp [a1], a2⟩
    cases hb : op.body with
    | stream f => rw [(hstr f hb).2.1]; exact old
    | request r =>
      rw [(hreq r hb).2.1]
      intro t e hx
      rcases (addPaths_entry r.paths h.pathsPos hx).2 with ⟨e0, b1, b2⟩ | ⟨_, b2⟩
      · rw [← b2]; exact old t e0 b1
      · obtain ⟨i1, i2, i3, i4, i5⟩ := idOk_request (h.ids id) hg hb
        exact ⟨id, r, by rw [hlog]; simp [i3], b2⟩
  · rw [eq4, eq7]; exact h.manager
  · rw [eq4, eq7]; exact fun hp => Sound.mono (h.kinds hp) hk
  · rw [eq2]; exact fun s hs => Told.mono (h.told s hs) hk
  · rw [eq2, eq4]; exact h.initTask
  · rw [eq2, eq4, eq8]; exact h.shutTask

end Mqtt.RrClient
