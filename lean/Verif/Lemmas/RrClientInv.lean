import Verif.Lemmas.RrClientStep

/-! The invariant of the request-response client holds in all histories, and no event faults. -/
namespace Mqtt.RrClient

open Mqtt.Rr (Kind Status StatusType Action Acquired Manager matchesType)

theorem abortPublishes_ok {cfg : Config} {strict : Bool} : ∀ (is : List Nat) {c : Client}, Inv cfg strict [] c →
    (∀ i, is.count i ≤ c.publishes.count i) →
    ∃ c', each (fun c i => c.publishDone i false) c is = .ok c' ∧ Inv cfg strict [] c' ∧ c'.phase = c.phase := by
  intro is
  induction is with
  | nil => intro c h _; exact ⟨c, rfl, h, rfl⟩
  | cons i is ih =>
    intro c h hc
    have hi : i ∈ c.publishes := by
      rw [← List.count_pos_iff]
      have := hc i
      rw [List.count_cons_self] at this
      omega
    obtain ⟨c1, a1, a2, a3, a4⟩ := publishDone_ok h hi false
    simp only [each, a1]
    obtain ⟨c2, b1, b2, b3⟩ := ih a2 (by
      intro j
      have := hc j
      rw [a4]
      by_cases e : j = i
      · subst e
        rw [List.count_cons_self] at this
        rw [List.count_erase_self]
        omega
      · rw [List.count_cons_of_ne (fun x => e x.symm)] at this
        rw [List.count_erase_of_ne e]
        exact this)
    exact ⟨c2, b1, b2, b3.trans a3.phase⟩

theorem failAll_ok {cfg : Config} {strict : Bool} (error : Failure) : ∀ (is : List Nat) {c : Client}, Inv cfg strict [] c →
    c.phase = .shuttingDown → (∀ i ∈ is, ∃ op, c.ops.get i = some op ∧ op.tracked = true) →
    ∃ c', each (fun c i => c.failOp i error) c is = .ok c' ∧ Inv cfg strict [] c' ∧ Steady c c' := by
  intro is
  induction is with
  | nil => intro c h _ _; exact ⟨c, rfl, h, .refl⟩
  | cons i is ih =>
    intro c h hp ha
    obtain ⟨op, hg, ht⟩ := ha i (by simp)
    obtain ⟨c1, a1, a2, a3⟩ := failOp_ok h hg (.inl ht) (fun _ hx => absurd hp hx) error
    simp only [each, a1]
    obtain ⟨c2, b1, b2, b3⟩ := ih a2 (by rw [a3.phase]; exact hp) (by
      intro j hj
      obtain ⟨o, o1, o2⟩ := ha j (by simp [hj])
      obtain ⟨o', p1, p2⟩ := a3.forth o1
      exact ⟨o', p1, by rw [(Op.view_eq p2).2.1]; exact o2⟩)
    exact ⟨c2, b1, b2, a3.trans b3⟩

/-- The client stops. -/
theorem Inv.stop {cfg : Config} {strict : Bool} {c : Client} (h : Inv cfg strict [.shutdown] c) (hp : c.phase = .active)
    (m : Manager) : Inv cfg strict [] { c with phase := .shuttingDown, scheduled := 0, manager := m } := by
  have hcount : ∀ t : Task, t ≠ .shutdown → ([] ++ c.tasks).count t = ([Task.shutdown] ++ c.tasks).count t := by
    intro t ht
    rw [count_cur (cur := [Task.shutdown]) (by simpa using ht)]
  exact { h with
    ids := fun id => (h.ids id).of rfl (hcount _ (by simp)) (hcount _ (by simp)) rfl (fun _ => Iff.rfl) (Nat.le_refl _)
      (fun x => x) (by simp)
    fresh := fun _ hx => absurd rfl hx
    manager := by intro e; cases e
    kinds := by intro e; cases e
    told := fun s hs => h.told s (List.mem_append.2 (.inr hs))
    initTask := by
      have := h.initTask
      rw [hcount _ (by simp), this, hp]
      rfl
    shutTask := by
      have := h.shutTask
      rw [hp] at this
      simp only [List.singleton_append, List.count_cons_self] at this
      simp only [List.nil_append, if_true]
      rw [if_neg (show ¬ Phase.active = .shuttingDown by simp)] at this
      omega }

theorem shutdown_ok {cfg : Config} {strict : Bool} {c : Client} (h : Inv cfg strict [.shutdown] c)
    (hi : Task.initialize ∉ c.tasks) {env : Env} (ha : ∀ i, env.aborted.count i ≤ c.publishes.count i) :
    ∃ c', c.shutdown env = .ok c' ∧ Inv cfg strict [] c' := by
  have hp : c.phase = .active := by
    cases he : c.phase with
    | active => rfl
    | uninitialized =>
      have := h.initTask
      rw [count_cur (by simp), he] at this
      simp only [List.nil_append, if_true] at this
      exact absurd (List.count_pos_iff.1 (show 0 < c.tasks.count .initialize by omega)) hi
    | shuttingDown =>
      have := h.shutTask
      rw [he] at this
      simp only [List.singleton_append, List.count_cons_self, if_true] at this
      omega
  obtain ⟨hr, hc⟩ := h.manager hp
  obtain ⟨m, e1, e2, e3⟩ := Rr.cleanUp_ok (Rr.reachable_minv hr) hc env.toEnv
  obtain ⟨new, n1, n2⟩ := Rr.cleanUp_statuses e1
  have hs : statuses new = [] := by
    rw [List.eq_nil_iff_forall_not_mem]
    intro s hx
    exact n2 s (mem_statuses.1 hx)
  have h1 := h.stop hp m
  have habs : Client.absorb { c with phase := .shuttingDown, scheduled := 0 } m =
      .ok { c with phase := .shuttingDown, scheduled := 0, manager := m } := by
    simp only [Client.absorb, n1, List.drop_left, hs]
    simp
  obtain ⟨c1, a1, a2, a3⟩ := abortPublishes_ok env.aborted h1 ha
  obtain ⟨c2, b1, b2, _⟩ := failAll_ok .shutDown ((c1.ops.filter fun e => e.2.tracked).map (·.1)) a2 a3 (by
    intro i hi
    obtain ⟨e, he, rfl⟩ := List.mem_map.1 hi
    obtain ⟨f1, f2⟩ := List.mem_filter.1 he
    exact ⟨e.2, (AMap.mem_iff_get a2.nodup).1 f1, f2⟩)
  refine ⟨c2, ?_, b2⟩
  simp only [Client.shutdown, Client.manage, e1, habs, a1]
  exact b1

theorem Inv.at {cfg : Config} {strict : Bool} {cur : List Task} {c : Client} (h : Inv cfg strict cur c) (now : Nat) :
    Inv cfg strict cur { c with clock := now } :=
  h.env (l := []) (es := []) (by simp) (by simp) .nil (fun _ hi => hi) h.publishes (fun hx => ⟨h.manager hx, h.kinds hx⟩)

theorem step_ok {cfg : Config} {strict : Bool} {c : Client} (h : Inv cfg strict [] c) {now : Nat} {e : Event}
    (he : Enabled c now e) (ht : strict = true → Timely c e) :
    ∃ c', stepAt cfg { c with clock := now } now e = .ok c' ∧ Inv cfg strict [] c' := by
  have h0 := h.at now
  cases e with
  | submit r => exact ⟨_, rfl, submitRequest_ok h0 now r⟩
  | openStream f => exact ⟨_, rfl, openStream_ok h0 f⟩
  | activate id =>
    obtain ⟨op, f, a1, a2, a3⟩ := he
    exact activate_ok h0 a1 a2 a3
  | close id =>
    obtain ⟨op, f, a1, a2, a3⟩ := he
    exact close_ok h0 a1 a2 a3
  | release => exact ⟨_, rfl, RrClient.release_ok h0 he⟩
  | task env k =>
    obtain ⟨t, a1, a2, a3⟩ := he
    have h1 := h0.take a1
    have hmem : ∀ t', t' ∈ c.tasks.eraseIdx k → t' ∈ c.tasks := fun t' hx => List.mem_of_mem_eraseIdx hx
    simp only [stepAt, a1]
    cases t with
    | «initialize» => exact ⟨_, rfl, initialize_ok h1 env⟩
    | status s =>
      obtain ⟨c', b1, b2, _⟩ := onStatus_ok h1 env now (h1.told s (by simp))
      exact ⟨c', b1, b2.endStatus⟩
    | submit id =>
      refine submit_ok h1 ?_ now
      intro op r hg hb
      obtain ⟨i1, i2, i3, i4, i5⟩ := idOk_request (h0.ids id) hg hb
      have hsc : 1 ≤ ([] ++ c.tasks).count (Task.submit id) :=
        List.count_pos_iff.2 (List.mem_of_getElem? a1)
      have hd : ([Task.submit id] ++ c.tasks.eraseIdx k).count (Task.destroy id) = ([] ++ c.tasks).count (Task.destroy id) :=
        ((perm_eraseIdx a1).count_eq _).symm
      simp only [hd]
      simp only at i5
      rcases i5 with ⟨a1, a2, a3, a4, a5, a6⟩ | ⟨a1, a2, a3, a4, a5⟩ | ⟨a1, a2, a3, a4, a5, a6⟩
      · exact ⟨a1, by omega, a5⟩
      · have := a3 (by omega)
        cases this
      · omega
    | destroy id =>
      rcases a2 with a2 | a2
      · cases a2
      · exact destroy_ok h1 (fun hx => a2 (hmem _ hx))
    | shutdown =>
      rcases a2 with a2 | a2
      · cases a2
      · exact shutdown_ok h1 (fun hx => a2 (hmem _ hx)) a3
  | service env expired =>
    obtain ⟨a1, a2, a3⟩ := he
    exact service_ok h0 env (fun i hi => (List.mem_filter.1 (a3.1.mem_iff.1 hi)).1) ht
  | finished env f a ok retryable =>
    simp only [stepAt]
    split
    · exact ⟨_, rfl, h0⟩
    · rename_i hp
      have hp : c.phase = .active := Decidable.of_not_not hp
      obtain ⟨hr, hc⟩ := h0.manager hp
      obtain ⟨m, e1, e2, e3⟩ := Rr.onSubscription_ok (Rr.reachable_minv hr) hc env.toEnv f a ok retryable (he.2 hp)
      obtain ⟨l, b1, b2⟩ := manage_ok (e := .finished env.toEnv f a ok retryable) h0 hp ⟨hc, he.2 hp⟩ e1 e3
        (Rr.onSubscription_sound (h0.kinds hp) e1)
      simp only at b1 e1
      simp only [Client.manage, e1]
      exact ⟨_, b1, b2⟩
  | connection env up joined =>
    simp only [stepAt]
    split
    · exact ⟨_, rfl, h0⟩
    · rename_i hp
      have hp : c.phase = .active := Decidable.of_not_not hp
      obtain ⟨hr, hc⟩ := h0.manager hp
      obtain ⟨m, e1, e2, e3⟩ := Rr.onConnection_ok (Rr.reachable_minv hr) hc env.toEnv up joined
      obtain ⟨l, b1, b2⟩ := manage_ok (e := .connection env.toEnv up joined) h0 hp hc e1 e3
        (Rr.onConnection_sound (h0.kinds hp) e1)
      simp only at b1 e1
      simp only [Client.manage, e1]
      exact ⟨_, b1, b2⟩
  | publish msg =>
    obtain ⟨c', a1, a2, _⟩ := onPublish_ok h0 msg
    exact ⟨c', a1, a2⟩
  | publishDone id ok =>
    obtain ⟨c', a1, a2, _⟩ := publishDone_ok h0 (show id ∈ c.publishes from he) ok
    exact ⟨c', a1, a2⟩
  | adapterTerminated =>
    exact ⟨_, rfl, h0.env (l := []) (es := []) (by simp) (by simp) .nil (fun _ hi => hi) h0.publishes
      (fun hx => ⟨h0.manager hx, h0.kinds hx⟩)⟩
  | terminate =>
    obtain ⟨a1, a2, a3, a4, a5, a6⟩ := he
    simp only [stepAt, a3]
    refine ⟨_, rfl, ?_⟩
    have hn : Neutral [Trace.terminated] := by
      intro e he; cases List.mem_singleton.1 he; exact ⟨by simp, fun _ => rfl⟩
    exact h0.env (l := []) (es := [.terminated]) (by simp [a3]) (by simp) hn (fun _ hi => hi) h0.publishes
      (fun hx => ⟨h0.manager hx, h0.kinds hx⟩)

theorem rehash_inv {cfg : Config} {strict : Bool} {c c' : Client} (h : Inv cfg strict [] c) (hr : Rehash c c') :
    Inv cfg strict [] c' := by
  have ho : ∀ j, c'.ops.get j = c.ops.get j := fun j => AMap.get_perm h.nodup hr.ops j
  have htk : ∀ t, c'.tokens.get t = c.tokens.get t := fun t => AMap.get_perm h.tokensNodup hr.tokens t
  have hpa : ∀ t, c'.paths.get t = c.paths.get t := fun t => AMap.get_perm h.pathsNodup hr.paths t
  have hq : c'.queue = c.queue := by rw [hr.same]
  have ht : c'.tasks = c.tasks := by rw [hr.same]
  have hl : c'.log = c.log := by rw [hr.same]
  have hn : c'.nextId = c.nextId := by rw [hr.same]
  have hp : c'.phase = c.phase := by rw [hr.same]
  have hm : c'.manager = { c.manager with records := c'.manager.records } := by
    conv => lhs; rw [hr.same]
  have hk : Known c' = Known c := by
    funext k i
    unfold Known
    simp only [ho, hq, hn]
  refine ⟨?_, ?_, ?_, ?_, ?_, ?_, ?_, ?_, ?_, ?_, ?_, ?_, ?_, ?_, ?_, ?_, ?_, ?_, ?_, ?_, ?_, ?_, ?_⟩
  · exact fun j => (h.ids j).of (ho j) (by rw [ht]) (by rw [ht]) (by rw [hl]) (fun _ => by rw [hl]) (Nat.le_of_eq hn.symm)
      (by rw [hq]; exact fun x => x) (fun x => x)
  · exact AMap.nodup_perm h.nodup hr.ops
  · rw [hq]; exact h.queueNodup
  · simp only [hq, ho]; exact h.queue
  · simp only [hq, ho, hp]; exact h.fresh
  · rw [show c'.timeouts = c.timeouts by rw [hr.same]]; simp only [ho]; exact h.timeouts
  · simp only [ho, htk]; exact h.tokens
  · simp only [ho, htk]; exact h.tokens'
  · exact AMap.nodup_perm h.tokensNodup hr.tokens
  · simp only [ho, hq]; exact h.tables
  · simp only [ho]; exact fun e he => h.streams e (hr.streams.mem_iff.1 he)
  · simp only [ho]; exact fun e he => h.wildcards e (hr.wildcards.mem_iff.1 he)
  · exact AMap.nodup_perm h.streamsNodup hr.streams
  · rw [hk, show c'.publishes = c.publishes by rw [hr.same]]; exact h.publishes
  · exact AMap.nodup_perm h.pathsNodup hr.paths
  · intro t; rw [hpa, h.paths t, regs_perm hr.ops]
  · simp only [hpa]; exact h.pathsPos
  · simp only [hpa, hl]; exact h.origin
  · rw [hp]
    intro hx
    obtain ⟨a1, a2⟩ := h.manager hx
    rw [hm]
    exact ⟨.rehash a1 hr.manager, a2⟩
  · rw [hp, hk]
    exact fun hx => Rr.rehash_sound (h.kinds hx) hr.manager
  · rw [ht, hk]; exact h.told
  · rw [ht, hp]; exact h.initTask
  · rw [ht, hp, show c'.held = c.held by rw [hr.same]]; exact h.shutTask

theorem new_inv {cfg : Config} {strict : Bool} : Inv cfg strict [] {} where
  ids := fun id => ⟨rfl, rfl, ⟨(by rintro ⟨r, hr⟩; cases hr), Nat.zero_le _, fun _ => Nat.zero_le _, (by intro h; cases h),
    fun _ => ⟨rfl, (by rintro ⟨r, hr⟩; cases hr)⟩⟩⟩
  nodup := AMap.nodup_nil
  queueNodup := List.nodup_nil
  queue := by simp
  fresh := by simp
  timeouts := by simp
  tokens := by simp
  tokens' := by simp
  tokensNodup := AMap.nodup_nil
  tables := by simp
  streams := by simp
  wildcards := by simp
  streamsNodup := AMap.nodup_nil
  publishes := by simp
  pathsNodup := AMap.nodup_nil
  paths := by simp [regs]
  pathsPos := by simp
  origin := by simp
  manager := by simp
  kinds := by simp
  told := by simp
  initTask := rfl
  shutTask := rfl

/-- All histories. -/
theorem reachable_inv {cfg : Config} {allowed : Client → Event → Prop} {strict : Bool} {c : Client}
    (h : Reachable cfg allowed c) (hs : strict = true → ∀ c e, allowed c e → Timely c e) : Inv cfg strict [] c := by
  induction h with
  | new => exact new_inv
  | step _ _ _ h1 h2 h3 ih =>
    obtain ⟨c', a1, a2⟩ := step_ok ih h1 (fun e => hs e _ _ h2)
    rw [a1] at h3
    cases h3
    exact a2
  | rehash _ h1 ih => exact rehash_inv ih h1

end Mqtt.RrClient
