import Verif.Lemmas.RrClientQueue
import Verif.Lemmas.RrManagerInv

/-! The functions of the request-response client keep the invariant and do not fault: service. -/
namespace Mqtt.RrClient

open Mqtt.Rr (Kind Status StatusType Action Acquired Manager matchesType)

theorem addToTables_fields (c : Client) (id : Nat) (op : Op) :
    (c.addToTables id op).ops = c.ops.set id { op with inTables := true } ∧ (c.addToTables id op).log = c.log ∧
    (c.addToTables id op).queue = c.queue ∧ (c.addToTables id op).phase = c.phase ∧
    (c.addToTables id op).nextId = c.nextId ∧ (c.addToTables id op).timeouts = c.timeouts := by
  unfold Client.addToTables
  cases op.body with
  | request r => exact ⟨rfl, rfl, rfl, rfl, rfl, rfl⟩
  | stream f => simp only; split <;> exact ⟨rfl, rfl, rfl, rfl, rfl, rfl⟩

theorem onAcquired_ok {cfg : Config} {strict : Bool} {cur : List Task} {c : Client} (h : Inv cfg strict cur c) {id : Nat}
    {op : Op} (hg : c.ops.get id = some op) (ht : op.tracked = true) (hi : op.inTables = false) (hq : id ∉ c.queue)
    (htok : ∀ r, op.body = .request r → c.tokens.get r.token = none)
    (hs : op.body.kind = .request → completions c.log id ≤ 1 ∧ (strict = true → op.state ≠ .pendingDestroy))
    (env : Env) (res : Acquired) :
    ∃ c', c.onAcquired env id res = .ok c' ∧ Inv cfg strict cur c' ∧ c'.queue = c.queue ∧ c'.phase = c.phase := by
  have hf : ∀ e, ∃ c', c.failOp id e = .ok c' ∧ Inv cfg strict cur c' ∧ c'.queue = c.queue ∧ c'.phase = c.phase := by
    intro e
    obtain ⟨c', a1, a2, a3⟩ := failOp_ok h hg (.inl ht) (fun _ _ => hq) e
    exact ⟨c', a1, a2, a3.queue, a3.phase⟩
  obtain ⟨f1, f2, f3, f4, f5, f6⟩ := addToTables_fields c id op
  have hset : ∀ s, (c.addToTables id op).setState id s =
      { c.addToTables id op with ops := c.ops.set id { op with inTables := true, state := s } } := by
    intro s
    simp only [Client.setState, f1, AMap.get_set_same, AMap.set_set]
  have hset' : ∀ (s : OpState) (es : List Trace), (op.body.kind = .request → s ≠ .pendingDestroy) → Neutral es →
      Inv cfg strict cur { c.addToTables id op with
        ops := c.ops.set id { op with inTables := true, state := s }, log := c.log ++ es } := by
    intro s es h1 h2
    exact h.enter hg ht hi hq htok h2 rfl (fun hk => .inr ⟨(hs hk).1, h1 hk, (hs hk).2⟩)
  simp only [Client.onAcquired, hg]
  cases res with
  | failure => exact hf _
  | noCapacity => exact hf _
  | blocked => exact ⟨c, rfl, h, rfl, rfl⟩
  | subscribing =>
    refine ⟨_, rfl, ?_, ?_, ?_⟩
    · rw [hset]
      have := hset' .pendingSubscription [] (by simp) .nil
      rw [List.append_nil] at this
      rw [← f2] at this
      exact this
    · rw [hset]; exact f3
    · rw [hset]; exact f4
  | subscribed =>
    simp only
    split
    · rename_i f hb
      refine ⟨_, rfl, ?_, ?_, ?_⟩
      · rw [hset]
        have := hset' .subscribed [.status id .established] (by simp) (neutral_status _ _)
        simp only [f2]
        exact this
      · rw [hset]; exact f3
      · rw [hset]; exact f4
    · rename_i r hb
      have h1 : Inv cfg strict cur (c.addToTables id op) := by
        have := h.enter hg ht hi hq htok (s := op.state) .nil rfl (fun _ => .inl rfl)
        rw [List.append_nil, ← f2] at this
        have hx : c.ops.set id { op with inTables := true, state := op.state } = (c.addToTables id op).ops := f1.symm
        rw [hx] at this
        exact this
      have hlt : id < c.nextId := (idOk_request (h.ids id) hg hb).1
      obtain ⟨c', a1, a2, a3⟩ := makeRequest_ok (op := { op with inTables := true }) h1 (by rw [f1, AMap.get_set_same])
        ⟨by rw [f5]; exact hlt, by rw [f3]; exact hq, by
          intro o ho
          rw [f1, AMap.get_set_same] at ho
          cases ho
          exact ⟨by show op.body.kind = _; rw [hb]; rfl, ht⟩⟩ env
      exact ⟨c', a1, a2, a3.queue.trans f3, a3.phase.trans f4⟩

theorem dequeue_ok {cfg : Config} {strict : Bool} {cur : List Task} (env : Env) : ∀ (q : List Nat) {c : Client},
    Inv cfg strict cur c → c.phase = .active → c.queue = q →
    ∃ c', Client.dequeue cfg env c q = .ok c' ∧ Inv cfg strict cur c' ∧ c'.phase = c.phase := by
  intro q
  induction q with
  | nil => intro c h _ _; exact ⟨c, rfl, h, rfl⟩
  | cons id q ih =>
    intro c h hp hq
    have hmem : id ∈ c.queue := by rw [hq]; simp
    obtain ⟨op, hg, ht, hi⟩ := h.queue id hmem
    have hnq : id ∉ q := by
      have := h.queueNodup
      rw [hq, List.nodup_cons] at this
      exact this.1
    simp only [Client.dequeue, hg]
    split
    · rename_i hcan
      obtain ⟨hr, hc⟩ := h.manager hp
      obtain ⟨res, m, e1, e2, e3⟩ := Rr.acquire_ok (Rr.reachable_minv hr) hc env.toEnv op.body.filters id op.body.kind
      simp only [e1]
      have hlt : id < c.nextId := by
        have := h.ids id
        unfold IdOk at this
        rw [hg] at this
        exact this.1
      have h0 : Inv cfg strict cur { c with queue := q } := h.pop (by rw [hq]; exact List.sublist_cons_self _ _)
      have hkn : Known { c with queue := q } op.body.kind id := ⟨hlt, hnq, by
        intro o ho
        rw [show AMap.get _ id = some op from hg] at ho
        cases ho
        exact ⟨rfl, ht⟩⟩
      obtain ⟨s1, s2⟩ := Rr.acquire_sound (P := Known { c with queue := q }) (h0.kinds hp) hkn e1
      have hr' : Rr.Reachable cfg.manager m :=
        .step (e := .acquire env.toEnv op.body.filters id op.body.kind) hr hc (by simp only [Rr.step, e1])
      obtain ⟨l, a1, a2⟩ := absorb_ok h0 hp hr' e3 s1 s2
      have habs : c.absorb m = .ok { c with manager := m, tasks := c.tasks ++ l } := by
        unfold Client.absorb at a1 ⊢
        simp only at a1 ⊢
        rw [if_neg (by rw [hp]; simp)] at a1 ⊢
        simp only [Except.ok.injEq, Client.mk.injEq] at a1 ⊢
        simp_all
      rw [habs]
      simp only
      split
      · rename_i hb
        subst hb
        have hm := Rr.acquire_blocked e1
        subst hm
        have hl : l = [] := by
          unfold Client.absorb at habs
          simp only at habs
          rw [if_neg (by rw [hp]; simp)] at habs
          simp only [Except.ok.injEq, Client.mk.injEq, List.drop_length] at habs
          have := habs.2.2.2.2.2.2.2.2.2.2.2.2.2.1
          simpa [statuses] using this.symm
        subst hl
        refine ⟨_, rfl, ?_, rfl⟩
        simp only [List.append_nil]
        exact h
      · obtain ⟨c2, b1, b2, b3, b4⟩ := onAcquired_ok (id := id) (op := op) a2 hg ht hi hnq
          (by
            intro r hb
            simp only [Client.canDequeue, hb] at hcan
            simpa using hcan)
          (by
            intro hk
            refine ⟨?_, fun hst => ?_⟩
            · cases hb : op.body with
              | stream f => rw [hb] at hk; cases hk
              | request r =>
                obtain ⟨_, _, _, _, i5⟩ := idOk_request (h.ids id) hg hb
                simp only
                rcases i5 with ⟨_, _, _, _, a5, _⟩ | ⟨_, _, _, a4, _⟩ | ⟨_, _, _, _, _, a6⟩
                · omega
                · omega
                · exact absurd hmem a6
            · cases hb : op.body with
              | stream f => rw [hb] at hk; cases hk
              | request r => exact h.fresh hst (by rw [hp]; simp) id hmem op r hg hb) env res
        simp only at b1
        rw [b1]
        simp only
        obtain ⟨c3, d1, d2, d3⟩ := ih b2 (by rw [b4]; exact hp) b3
        exact ⟨c3, d1, d2, by rw [d3, b4]⟩
    · exact ⟨c, rfl, h, rfl⟩

theorem processQueue_ok {cfg : Config} {strict : Bool} {cur : List Task} {c : Client} (h : Inv cfg strict cur c)
    (hp : c.phase = .active) (env : Env) :
    ∃ c', c.processQueue cfg env = .ok c' ∧ Inv cfg strict cur c' ∧ c'.phase = c.phase := by
  obtain ⟨hr, hc⟩ := h.manager hp
  obtain ⟨m, e1, e2, e3, _⟩ := Rr.purge_ok (Rr.reachable_minv hr) hc env.toEnv
  obtain ⟨l, a1, a2⟩ := manage_ok (e := .purge env.toEnv) h hp hc e1 e3 (Rr.purge_sound (h.kinds hp) e1)
  simp only [Client.processQueue, Client.manage, e1, a1]
  exact dequeue_ok env c.queue a2 hp rfl

/-- An operation whose timeout is handled leaves the heap. -/
theorem Inv.due {cfg : Config} {strict : Bool} {cur : List Task} {c : Client} (h : Inv cfg strict cur c) (i : Nat) :
    Inv cfg strict cur { c with timeouts := c.timeouts.erase i } :=
  h.env (l := []) (es := []) (by simp) (by simp) .nil (fun _ hi => List.mem_of_mem_erase hi) h.publishes
    (fun hx => ⟨h.manager hx, h.kinds hx⟩)

theorem expire_ok {cfg : Config} {strict : Bool} {cur : List Task} : ∀ (is : List Nat) {c : Client},
    Inv cfg strict cur c → (∀ i ∈ is, ∃ op, c.ops.get i = some op ∧ op.tracked = true) →
    (strict = true → ∀ i ∈ is, i ∉ c.queue) →
    ∃ c', each (fun c i => Client.failOp { c with timeouts := c.timeouts.erase i } i .timeout) c is = .ok c' ∧
      Inv cfg strict cur c' ∧ c'.phase = c.phase ∧ c'.queue = c.queue := by
  intro is
  induction is with
  | nil => intro c h _ _; exact ⟨c, rfl, h, rfl, rfl⟩
  | cons i is ih =>
    intro c h ha hq
    obtain ⟨op, hg, ht⟩ := ha i (by simp)
    obtain ⟨c1, a1, a2, a3⟩ := failOp_ok (h.due i) hg (.inl ht) (fun hst _ => hq hst i (by simp)) .timeout
    simp only [each, a1]
    obtain ⟨c2, b1, b2, b3, b4⟩ := ih a2 (by
      intro j hj
      obtain ⟨o, o1, o2⟩ := ha j (by simp [hj])
      obtain ⟨o', p1, p2⟩ := a3.forth (c := { c with timeouts := c.timeouts.erase i }) o1
      exact ⟨o', p1, by rw [(Op.view_eq p2).2.1]; exact o2⟩) (by
      intro hst j hj
      rw [a3.queue]
      exact hq hst j (by simp [hj]))
    exact ⟨c2, b1, b2, b3.trans a3.phase, b4.trans a3.queue⟩

theorem service_ok {cfg : Config} {strict : Bool} {cur : List Task} {c : Client} (h : Inv cfg strict cur c) (env : Env)
    {expired : List Nat} (he : ∀ i ∈ expired, i ∈ c.timeouts) (hq : strict = true → ∀ i ∈ expired, i ∉ c.queue) :
    ∃ c', c.service cfg env expired = .ok c' ∧ Inv cfg strict cur c' := by
  have hsch : ∀ {c : Client}, Inv cfg strict cur c → ∀ s, Inv cfg strict cur { c with scheduled := s } := fun h s =>
    h.env (l := []) (es := []) (by simp) (by simp) .nil (fun _ hi => hi) h.publishes (fun hx => ⟨h.manager hx, h.kinds hx⟩)
  unfold Client.service
  split
  · exact ⟨_, rfl, hsch h 0⟩
  · rename_i hp
    have hp : c.phase = .active := Decidable.of_not_not hp
    obtain ⟨c1, a1, a2, a3, a4⟩ := expire_ok expired (hsch h 0) (by
      intro i hi
      obtain ⟨op, r, o1, _, o2⟩ := h.timeouts i (he i hi)
      exact ⟨op, o1, o2⟩) hq
    simp only [a1]
    obtain ⟨c2, b1, b2, b3⟩ := processQueue_ok a2 (by rw [a3]; exact hp) env
    simp only [b1]
    exact ⟨_, rfl, hsch b2 _⟩

end Mqtt.RrClient
