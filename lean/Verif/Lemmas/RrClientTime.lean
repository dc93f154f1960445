import Verif.Lemmas.RrClientCalm

/-! Timeouts of the request-response client: requests that wait are on the heap, and the service task is scheduled in time. -/
namespace Mqtt.RrClient

open Mqtt.Rr (Kind Status StatusType Action Acquired Manager)

/-- The operation timeout in nanoseconds. -/
def Config.timeout (cfg : Config) : Nat := cfg.timeoutSeconds * 1000000000

/-- The invariant of timeouts. -/
structure TInv (cfg : Config) (c : Client) : Prop where
  started : 1 ≤ c.clock
  heap : c.phase ≠ .shuttingDown → ∀ id op r, c.ops.get id = some op → op.body = .request r → op.tracked = true →
    completions c.log id = 0 → id ∈ c.timeouts
  idle : c.phase = .uninitialized → c.timeouts = []
  pos : c.clock + cfg.timeout < u64 → ∀ id op, c.ops.get id = some op → 0 < op.timeout
  next : c.clock + cfg.timeout < u64 → c.phase = .active →
    c.scheduled ≠ 0 ∧ ∀ id ∈ c.timeouts, c.scheduled ≤ max (c.timeoutOf id) c.clock

/-- What a history does to operations and the log. -/
structure Grows (c c' : Client) : Prop where
  log : c.log <+: c'.log
  nextId : c.nextId ≤ c'.nextId
  ops : ∀ id, id < c.nextId → ∀ op', c'.ops.get id = some op' →
    ∃ op, c.ops.get id = some op ∧ op'.body = op.body ∧ op'.timeout = op.timeout

theorem Grows.refl (c : Client) : Grows c c := ⟨List.prefix_rfl, Nat.le_refl _, fun _ _ op h => ⟨op, h, rfl, rfl⟩⟩

theorem Grows.trans {a b c : Client} (h : Grows a b) (h' : Grows b c) : Grows a c := by
  refine ⟨h.log.trans h'.log, Nat.le_trans h.nextId h'.nextId, ?_⟩
  intro id hid op hg
  obtain ⟨o, a1, a2, a3⟩ := h'.ops id (Nat.lt_of_lt_of_le hid h.nextId) op hg
  obtain ⟨o', b1, b2, b3⟩ := h.ops id hid o a1
  exact ⟨o', b1, a2.trans b2, a3.trans b3⟩

theorem Calm.grows {c c' : Client} (h : Calm c c') : Grows c c' := by
  refine ⟨h.log, Nat.le_of_eq h.nextId.symm, ?_⟩
  intro id _ op hg
  obtain ⟨o, a1, a2, a3, _⟩ := h.back hg
  exact ⟨o, a1, a2, a3⟩

theorem TInv.calm {cfg : Config} {c c' : Client} (h : TInv cfg c) (hc : Calm c c') : TInv cfg c' := by
  constructor
  · rw [hc.clock]; exact h.started
  · rw [hc.phase, hc.timeouts]
    intro hp id op r hg hb ht hn
    obtain ⟨o, a1, a2, a3, a4⟩ := hc.back hg
    refine h.heap hp id o r a1 (by rw [← a2]; exact hb) (by rw [← a4]; exact ht) ?_
    have := completions_prefix hc.log id
    omega
  · rw [hc.phase, hc.timeouts]; exact h.idle
  · rw [hc.clock]
    intro hu id op hg
    obtain ⟨o, a1, a2, a3, a4⟩ := hc.back hg
    rw [a3]
    exact h.pos hu id o a1
  · rw [hc.clock, hc.phase, hc.timeouts, hc.scheduled]
    intro hu hp
    simp only [hc.timeoutOf]
    exact h.next hu hp

theorem TInv.at {cfg : Config} {c : Client} (h : TInv cfg c) {now : Nat} (hn : c.clock ≤ now) :
    TInv cfg { c with clock := now } := by
  refine ⟨Nat.le_trans h.started hn, h.heap, h.idle, ?_, ?_⟩
  · intro hu
    exact h.pos (Nat.lt_of_le_of_lt (Nat.add_le_add_right hn _) hu)
  · intro hu hp
    obtain ⟨h1, h2⟩ := h.next (Nat.lt_of_le_of_lt (Nat.add_le_add_right hn _) hu) hp
    refine ⟨h1, fun id hi => ?_⟩
    have := h2 id hi
    have h3 : ({ c with clock := now } : Client).timeoutOf id = c.timeoutOf id := rfl
    show c.scheduled ≤ max (({ c with clock := now } : Client).timeoutOf id) now
    rw [h3]
    omega

theorem TInv.wake {cfg : Config} {c : Client} (h : TInv cfg c) : TInv cfg (c.wake c.clock) := by
  unfold Client.wake
  split
  · exact h
  · split
    · refine ⟨h.started, h.heap, h.idle, h.pos, ?_⟩
      intro _ _
      have hs := h.started
      refine ⟨?_, fun id _ => ?_⟩
      · show c.clock ≠ 0
        omega
      · exact Nat.le_max_right _ _
    · exact h

theorem wake_grows (c : Client) (now : Nat) : Grows c (c.wake now) := by
  unfold Client.wake
  split
  · exact .refl _
  · split
    · exact ⟨List.prefix_rfl, Nat.le_refl _, fun _ _ op h => ⟨op, h, rfl, rfl⟩⟩
    · exact .refl _

/-- A request that is failed has been completed. -/
theorem failOp_completed {cfg : Config} {cur : List Task} {c c' : Client} (h : Inv cfg false cur c) {id : Nat} {op : Op}
    {r : Request} (hg : c.ops.get id = some op) (hb : op.body = .request r) {e : Failure} (hf : c.failOp id e = .ok c') :
    1 ≤ completions c'.log id := by
  have hcalm := failOp_calm hf
  unfold Client.failOp at hf
  rw [hg] at hf
  simp only [hb] at hf
  unfold Client.failRequest at hf
  rw [hg] at hf
  simp only [hb] at hf
  split at hf
  · rename_i hs
    have hi := h.ids id
    unfold IdOk at hi
    rw [hg] at hi
    simp only [hb] at hi
    cases hf
    rcases hi.2.2.2.2 with ⟨-, -, -, h4, -⟩ | ⟨-, -, -, h4, -⟩ | ⟨-, -, -, h4, -⟩
    · exact absurd hs h4
    · omega
    · omega
  · have := completions_prefix (releaseOp_calm hf).log id
    simp only [completions_append] at this
    simp only [completions, List.countP_cons, List.countP_nil, isCompletion, beq_self_eq_true, if_true] at this
    unfold completions
    omega

/-- What `s_check_for_operation_timeouts` does. -/
theorem expire_time {cfg : Config} {cur : List Task} : ∀ (is : List Nat) {c c' : Client}, Inv cfg false cur c →
    (∀ i ∈ is, ∃ op r, c.ops.get i = some op ∧ op.body = .request r ∧ op.tracked = true) →
    each (fun c i => Client.failOp { c with timeouts := c.timeouts.erase i } i .timeout) c is = .ok c' →
    Inv cfg false cur c' ∧ (∀ i ∈ is, 1 ≤ completions c'.log i) ∧
      Calm { c with timeouts := c'.timeouts } c' ∧ (∀ i ∈ c.timeouts, i ∈ is ∨ i ∈ c'.timeouts) ∧
      ∀ i ∈ c'.timeouts, i ∈ c.timeouts := by
  intro is
  induction is with
  | nil =>
    intro c c' h _ hr
    cases hr
    exact ⟨h, by simp, .refl _, fun i hi => .inr hi, fun i hi => hi⟩
  | cons i is ih =>
    intro c c' h hi hr
    obtain ⟨op, r, hg, hb, ht⟩ := hi i (by simp)
    unfold each at hr
    split at hr
    · cases hr
    · rename_i c1 h1
      obtain ⟨c2, a1, a2, a3⟩ := failOp_ok (h.due i) hg (.inl ht) (by simp) .timeout
      rw [h1] at a1
      cases a1
      have hcalm := failOp_calm h1
      obtain ⟨b1, b2, b3, b4, b5⟩ := ih a2 (by
        intro j hj
        obtain ⟨o, r', o1, o2, o3⟩ := hi j (by simp [hj])
        obtain ⟨o', p1, p2⟩ := a3.forth (c := { c with timeouts := c.timeouts.erase i }) o1
        obtain ⟨v1, v2, _⟩ := Op.view_eq p2
        exact ⟨o', r', p1, by rw [v1]; exact o2, by rw [v2]; exact o3⟩) hr
      refine ⟨b1, ?_, ?_, ?_, ?_⟩
      · intro j hj
        rcases List.mem_cons.1 hj with rfl | hj
        · have h2 : 1 ≤ completions c1.log j := failOp_completed (h.due j) hg hb h1
          have := completions_prefix b3.log j
          simp only at this
          omega
        · exact b2 j hj
      · refine Calm.trans ?_ b3
        exact ⟨hcalm.log, hcalm.ops, rfl, hcalm.scheduled, hcalm.phase, hcalm.clock, hcalm.nextId⟩
      · intro j hj
        by_cases hji : j = i
        · exact .inl (by simp [hji])
        · rcases b4 j (by rw [hcalm.timeouts]; exact (List.mem_erase_of_ne hji).2 hj) with hx | hx
          · exact .inl (by simp [hx])
          · exact .inr hx
      · intro j hj
        have := b5 j hj
        rw [hcalm.timeouts] at this
        exact List.mem_of_mem_erase this

theorem foldl_min_le (l : List Nat) (a : Nat) : l.foldl min a ≤ a ∧ ∀ x ∈ l, l.foldl min a ≤ x := by
  induction l generalizing a with
  | nil => simp
  | cons y l ih =>
    obtain ⟨h1, h2⟩ := ih (min a y)
    simp only [List.foldl_cons]
    refine ⟨by omega, ?_⟩
    intro x hx
    rcases List.mem_cons.1 hx with rfl | hx
    · omega
    · exact h2 x hx

theorem foldl_min_pos (l : List Nat) {a : Nat} (ha : 0 < a) (hl : ∀ x ∈ l, 0 < x) : 0 < l.foldl min a := by
  induction l generalizing a with
  | nil => exact ha
  | cons y l ih =>
    have hy := hl y (by simp)
    exact ih (by omega) (fun x hx => hl x (by simp [hx]))

theorem never_pos : 0 < never := by
  unfold never u64
  omega

theorem service_time {cfg : Config} {cur : List Task} {c c' : Client} (h : Inv cfg false cur c) (ht : TInv cfg c) {env : Env}
    {expired : List Nat} (he : ∀ i ∈ expired, i ∈ c.timeouts) (hr : c.service cfg env expired = .ok c') :
    TInv cfg c' ∧ Grows c c' ∧ (c.phase = .active → ∀ i ∈ expired, 1 ≤ completions c'.log i) := by
  unfold Client.service at hr
  split at hr
  · rename_i hp
    cases hr
    refine ⟨⟨ht.started, ht.heap, ht.idle, ht.pos, fun _ hx => absurd hx hp⟩,
      ⟨List.prefix_rfl, Nat.le_refl _, fun _ _ op h => ⟨op, h, rfl, rfl⟩⟩, fun hx => absurd hx hp⟩
  · rename_i hp
    have hp : c.phase = .active := Decidable.of_not_not hp
    have hsch : Inv cfg false cur { c with scheduled := 0 } :=
      h.env (l := []) (es := []) (by simp) (by simp) .nil (fun _ hi => hi) h.publishes (fun hx => ⟨h.manager hx, h.kinds hx⟩)
    split at hr
    · cases hr
    · rename_i c1 h1
      obtain ⟨b1, b2, b3, b4, b5⟩ := expire_time expired hsch (fun i hi => h.timeouts i (he i hi)) h1
      split at hr
      · cases hr
      · rename_i c2 h2
        have hc2 := processQueue_calm h2
        have hcalm := b3.trans hc2
        cases hr
        have hph : c2.phase = .active := hcalm.phase.trans hp
        have hto : c2.timeouts = c1.timeouts := hc2.timeouts
        have hg : Grows c c2 := by
          refine ⟨hcalm.log, Nat.le_of_eq hcalm.nextId.symm, ?_⟩
          intro id _ op hg
          obtain ⟨o, a1, a2, a3, _⟩ := hcalm.back hg
          exact ⟨o, a1, a2, a3⟩
        have hpos : c2.clock + cfg.timeout < u64 → ∀ id op, c2.ops.get id = some op → 0 < op.timeout := by
          intro hu id op hx
          obtain ⟨o, a1, a2, a3, _⟩ := hcalm.back hx
          rw [a3]
          exact ht.pos (by rw [← show c2.clock = c.clock from hcalm.clock]; exact hu) id o a1
        refine ⟨⟨?_, ?_, ?_, hpos, ?_⟩, ⟨hg.log, hg.nextId, hg.ops⟩, ?_⟩
        · rw [show ({ c2 with scheduled := c2.nextService } : Client).clock = c.clock from hcalm.clock]; exact ht.started
        · intro _ id op r hx hb htr hn
          obtain ⟨o, a1, a2, a3, a4⟩ := hcalm.back hx
          have h0 := completions_prefix hcalm.log id
          simp only at h0 hn
          show id ∈ c2.timeouts
          rw [hto]
          have hm := ht.heap (by rw [hp]; simp) id o r a1 (by rw [← a2]; exact hb) (by rw [← a4]; exact htr) (by omega)
          rcases b4 id hm with hm | hm
          · have := b2 id hm
            have h3 := completions_prefix hc2.log id
            omega
          · exact hm
        · intro hx
          simp only [hph] at hx
          cases hx
        · intro hu _
          refine ⟨?_, fun id hi => ?_⟩
          · show c2.nextService ≠ 0
            have : 0 < c2.nextService := by
              refine foldl_min_pos _ never_pos ?_
              intro x hx
              obtain ⟨i, hi, rfl⟩ := List.mem_map.1 hx
              rw [hto] at hi
              obtain ⟨o', _, a1', _⟩ := hsch.timeouts i (b5 i hi)
              rw [hcalm.timeoutOf]
              show 0 < c.timeoutOf i
              unfold Client.timeoutOf
              have a1' : c.ops.get i = some o' := a1'
              rw [a1']
              exact ht.pos (by rw [← show c2.clock = c.clock from hcalm.clock]; exact hu) i o' a1'
            omega
          · show c2.nextService ≤ max (c2.timeoutOf id) c2.clock
            have := (foldl_min_le (c2.timeouts.map c2.timeoutOf) never).2 (c2.timeoutOf id) (List.mem_map_of_mem hi)
            unfold Client.nextService
            omega
        · intro _ i hi
          have := b2 i hi
          have h3 := completions_prefix hc2.log i
          show 1 ≤ completions c2.log i
          omega

theorem submit_time {cfg : Config} {c c' : Client} (ht : TInv cfg c) {id : Nat} (hu : c.phase ≠ .uninitialized) (hr : c.submit c.clock id = .ok c') : TInv cfg c' ∧ Grows c c' := by
  unfold Client.submit at hr
  split at hr
  · cases hr
  · rename_i op hg
    split at hr
    · split at hr
      · cases hr
      · rename_i c1 h1
        have := (failOp_calm h1).trans (releaseOp_calm hr)
        exact ⟨ht.calm this, this.grows⟩
    · rename_i hp
      simp only at hr
      have hcalm := releaseOp_calm hr
      have hget : ∀ j, (c.ops.set id { op with tracked := true, state := .queued }).get j =
          if j = id then some { op with tracked := true, state := .queued } else c.ops.get j := fun j => AMap.get_set _ _ _ _
      refine ⟨TInv.calm ?_ hcalm, Grows.trans ?_ hcalm.grows⟩
      · have key : ∀ ts : List Nat, (∀ i ∈ c.timeouts, i ∈ ts) → (∀ i ∈ ts, i ∈ c.timeouts ∨ i = id) →
            ((∃ r, op.body = .request r) → id ∈ ts) →
            TInv cfg (Client.wake { c with ops := c.ops.set id { op with tracked := true, state := .queued }
                                           timeouts := ts, queue := c.queue ++ [id] } c.clock) := by
          intro ts h1 h2 h3
          have hpos : c.clock + cfg.timeout < u64 → ∀ j o,
              (c.ops.set id { op with tracked := true, state := .queued }).get j = some o → 0 < o.timeout := by
            intro hu j o hx
            rw [hget] at hx
            split at hx
            · cases hx; exact ht.pos hu id op hg
            · exact ht.pos hu j o hx
          have hheap : ∀ j o r, (c.ops.set id { op with tracked := true, state := .queued }).get j = some o →
              o.body = .request r → o.tracked = true → completions c.log j = 0 → j ∈ ts := by
            intro j o r hx hb htr hn
            rw [hget] at hx
            split at hx
            · rename_i e
              subst e
              cases hx
              exact h3 ⟨r, hb⟩
            · exact h1 j (ht.heap hp j o r hx hb htr hn)
          unfold Client.wake
          split
          · rename_i hpa
            simp only at hpa
            exfalso
            cases hph : c.phase <;> simp [hph] at hpa hp hu
          · rename_i hpa
            split
            · refine ⟨ht.started, fun _ => hheap, fun hx => absurd hx hu, hpos, ?_⟩
              intro _ _
              have := ht.started
              refine ⟨?_, fun j _ => Nat.le_max_right _ _⟩
              show c.clock ≠ 0
              omega
            · rename_i hs
              refine ⟨ht.started, fun _ => hheap, fun hx => absurd hx hu, hpos, ?_⟩
              intro _ _
              simp only [not_or, Nat.not_lt] at hs
              refine ⟨hs.1, fun j _ => Nat.le_trans hs.2 (Nat.le_max_right _ _)⟩
        rcases hb : op.body with r | f
        · simp only [hb] at key ⊢
          exact key _ (by simp +contextual) (by simp) (by simp)
        · simp only [hb] at key ⊢
          exact key _ (by simp) (by simp +contextual) (by simp)
      · refine Grows.trans ?_ (wake_grows _ _)
        refine ⟨List.prefix_rfl, Nat.le_refl _, ?_⟩
        intro j _ o hx
        simp only at hx
        rw [hget] at hx
        split at hx
        · rename_i e
          subst e
          cases hx
          exact ⟨op, hg, rfl, rfl⟩
        · exact ⟨o, hx, rfl, rfl⟩

theorem destroy_time {cfg : Config} {c c' : Client} (ht : TInv cfg c) {id : Nat}
    (hr : c.destroy id = .ok c') : TInv cfg c' ∧ Grows c c' := by
  unfold Client.destroy at hr
  split at hr
  · cases hr
  · rename_i op hg
    simp only at hr
    split at hr
    · cases hr
    · rename_i c1 h1
      have hcalm : Calm { c with timeouts := c.timeouts.filter (· != id) } c1 := by
        split at h1
        · have := absorb_calm h1
          exact ⟨this.log, this.ops, this.timeouts, this.scheduled, this.phase, this.clock, this.nextId⟩
        · cases h1
          exact ⟨List.prefix_rfl, fun _ => rfl, rfl, rfl, rfl, rfl, rfl⟩
      have hrem : Calm c1 (c1.removeFromTables op) := by
        unfold Client.removeFromTables
        split
        · exact .refl _
        · split
          · exact ⟨List.prefix_rfl, fun _ => rfl, rfl, rfl, rfl, rfl, rfl⟩
          · exact .refl _
      have hcalm := hcalm.trans hrem
      generalize c1.removeFromTables op = c2 at hr hcalm
      have hn2 : c2.log <+: c'.log ∧ c'.ops = c2.ops.del id ∧ c'.timeouts = c2.timeouts ∧ c'.phase = c2.phase ∧
          c'.clock = c2.clock ∧ c'.scheduled = c2.scheduled ∧ c'.nextId = c2.nextId := by
        simp only [Except.ok.injEq] at hr
        rw [← hr]
        refine ⟨?_, rfl, rfl, rfl, rfl, rfl, rfl⟩
        simp only
        split <;> simp
      obtain ⟨e1, e2, e3, e4, e5, e6, e7⟩ := hn2
      have hlog := hcalm.log.trans e1
      have hget : ∀ j o, c'.ops.get j = some o → j ≠ id ∧ ∃ o', c.ops.get j = some o' ∧ o.body = o'.body ∧
          o.timeout = o'.timeout ∧ o.tracked = o'.tracked := by
        intro j o hx
        rw [e2, AMap.get_del] at hx
        split at hx
        · cases hx
        · rename_i hne
          exact ⟨hne, hcalm.back hx⟩
      refine ⟨⟨?_, ?_, ?_, ?_, ?_⟩, ⟨hlog, ?_, ?_⟩⟩
      · rw [e5, hcalm.clock]; exact ht.started
      · rw [e4, hcalm.phase]
        intro hp j o r hx hb htr hcn
        obtain ⟨hne, o', a1, a2, a3, a4⟩ := hget j o hx
        have := completions_prefix hlog j
        simp only at this
        have hm := ht.heap hp j o' r a1 (by rw [← a2]; exact hb) (by rw [← a4]; exact htr) (by omega)
        rw [e3, hcalm.timeouts]
        simp [hm, hne]
      · rw [e4, hcalm.phase, e3, hcalm.timeouts]
        intro hp
        simp [ht.idle hp]
      · rw [e5, hcalm.clock]
        intro hu j o hx
        obtain ⟨hne, o', a1, a2, a3, a4⟩ := hget j o hx
        rw [a3]
        exact ht.pos hu j o' a1
      · rw [e5, hcalm.clock, e4, hcalm.phase, e6, hcalm.scheduled, e3, hcalm.timeouts]
        intro hu hp
        obtain ⟨h1, h2⟩ := ht.next hu hp
        refine ⟨h1, fun j hj => ?_⟩
        simp only [List.mem_filter, bne_iff_ne] at hj
        have h3 : c'.timeoutOf j = c.timeoutOf j := by
          have h4 := hcalm.timeoutOf j
          have h5 : c2.timeoutOf j = c.timeoutOf j := h4
          rw [← h5]
          unfold Client.timeoutOf
          rw [e2, AMap.get_del, if_neg hj.2]
        rw [h3]
        exact h2 j hj.1
      · rw [e7, hcalm.nextId]; exact Nat.le_refl _
      · intro j _ o hx
        obtain ⟨_, o', a1, a2, a3, _⟩ := hget j o hx
        exact ⟨o', a1, a2, a3⟩

theorem onStatus_time {cfg : Config} {c c' : Client} (ht : TInv cfg c) {env : Env} {s : Status}
    (hr : c.onStatus env c.clock s = .ok c') : TInv cfg c' ∧ Grows c c' := by
  have calm : Calm c c' → TInv cfg c' ∧ Grows c c' := fun h => ⟨ht.calm h, h.grows⟩
  unfold Client.onStatus at hr
  split at hr
  · cases hr; exact ⟨ht.wake, wake_grows _ _⟩
  · cases hr; exact ⟨ht.wake, wake_grows _ _⟩
  · split at hr
    · cases hr; exact calm (.refl _)
    · split at hr
      · split at hr
        · exact calm (requestStatus_calm hr)
        · exact calm (requestStatus_calm hr)
        · exact calm (requestStatus_calm hr)
        · exact calm (streamStatus_calm hr)
      · cases hr; exact calm (.refl _)

theorem shutdown_time {cfg : Config} {c c' : Client} (ht : TInv cfg c) {env : Env} (hr : c.shutdown env = .ok c') :
    TInv cfg c' ∧ Grows c c' := by
  unfold Client.shutdown at hr
  simp only at hr
  split at hr
  · cases hr
  · rename_i c1 h1
    split at hr
    · cases hr
    · rename_i c2 h2
      have hcalm := ((manage_calm h1).trans (each_calm (fun _ _ _ => publishDone_calm) h2)).trans
        (each_calm (fun _ _ _ => failOp_calm) hr)
      have h0 : TInv cfg { c with phase := .shuttingDown, scheduled := 0 } :=
        ⟨ht.started, by simp, by simp, ht.pos, by simp⟩
      exact ⟨h0.calm hcalm, ⟨hcalm.grows.log, hcalm.grows.nextId, hcalm.grows.ops⟩⟩

theorem initialize_time {cfg : Config} {c : Client} (ht : TInv cfg c) (env : Env) :
    TInv cfg (c.initialize env) ∧ Grows c (c.initialize env) := by
  unfold Client.initialize
  simp only
  have calm : ∀ {c : Client}, Calm c { c with log := c.log ++ [.initialized] } :=
    ⟨List.prefix_append _ _, fun _ => rfl, rfl, rfl, rfl, rfl, rfl⟩
  split
  · rename_i hp
    refine ⟨⟨ht.started, ?_, by simp, ht.pos, ?_⟩,
      ⟨List.prefix_append _ _, Nat.le_refl _, fun _ _ op h => ⟨op, h, rfl, rfl⟩⟩⟩
    · intro _ id op r hg hb htr hn
      refine ht.heap (by rw [hp]; simp) id op r hg hb htr ?_
      have := completions_prefix (List.prefix_append c.log [Trace.initialized]) id
      simp only at hn
      omega
    · intro _ _
      refine ⟨by have := never_pos; show never ≠ 0; omega, ?_⟩
      show ∀ id ∈ c.timeouts, _
      rw [ht.idle hp]
      simp
  · exact ⟨ht.calm calm, calm.grows⟩

theorem create_time {cfg : Config} {c : Client} (ht : TInv cfg c) (h : ∀ id ∈ c.timeouts, id < c.nextId) {op : Op}
    (tasks : List Task) (es : List Trace) (htr : op.tracked = false) (hp : c.clock + cfg.timeout < u64 → 0 < op.timeout) :
    TInv cfg { c with nextId := c.nextId + 1, ops := c.ops.set c.nextId op, tasks := tasks, log := c.log ++ es } ∧
    Grows c { c with nextId := c.nextId + 1, ops := c.ops.set c.nextId op, tasks := tasks, log := c.log ++ es } := by
  refine ⟨⟨ht.started, ?_, ht.idle, ?_, ?_⟩, ⟨List.prefix_append _ _, Nat.le_succ _, ?_⟩⟩
  · intro hph id o r hg hb htk hn
    simp only [AMap.get_set] at hg
    split at hg
    · cases hg; rw [htr] at htk; cases htk
    · refine ht.heap hph id o r hg hb htk ?_
      have := completions_prefix (List.prefix_append c.log es) id
      simp only at hn
      omega
  · intro hu id o hg
    simp only [AMap.get_set] at hg
    split at hg
    · cases hg; exact hp hu
    · exact ht.pos hu id o hg
  · intro hu hph
    obtain ⟨h1, h2⟩ := ht.next hu hph
    refine ⟨h1, fun id hi => ?_⟩
    have h3 := h2 id hi
    have hne : id ≠ c.nextId := by have := h id hi; omega
    unfold Client.timeoutOf at h3 ⊢
    simp only [AMap.get_set, if_neg hne]
    exact h3
  · intro id hid o hg
    simp only [AMap.get_set] at hg
    rw [if_neg (by omega)] at hg
    exact ⟨o, hg, rfl, rfl⟩

theorem run_time {cfg : Config} {c c' : Client} {t : Task} (ht : TInv cfg c) {env : Env}
    (hu : t = .initialize ∨ c.phase ≠ .uninitialized)
    (hr : c.run env c.clock t = .ok c') : TInv cfg c' ∧ Grows c c' := by
  cases t with
  | «initialize» =>
    cases hr
    exact initialize_time ht env
  | submit id => exact submit_time ht (by simpa using hu) hr
  | status s => exact onStatus_time ht hr
  | destroy id => exact destroy_time ht hr
  | shutdown => exact shutdown_time ht hr

theorem step_time {cfg : Config} {c c' : Client} (h : Inv cfg false [] c) (ht : TInv cfg c) {now : Nat} {e : Event}
    (hn : c.clock ≤ now) (he : Enabled c now e) (hr : stepAt cfg { c with clock := now } now e = .ok c') :
    TInv cfg c' ∧ Grows c c' := by
  have h0 := h.at now
  have ht0 := ht.at hn
  have hg0 : Grows c { c with clock := now } := ⟨List.prefix_rfl, Nat.le_refl _, fun _ _ op h => ⟨op, h, rfl, rfl⟩⟩
  have hlt : ∀ id ∈ c.timeouts, id < c.nextId := by
    intro id hi
    obtain ⟨op, r, a1, _⟩ := h.timeouts id hi
    have := h.ids id
    unfold IdOk at this
    rw [a1] at this
    exact this.1
  suffices hx : TInv cfg c' ∧ Grows { c with clock := now } c' from ⟨hx.1, hg0.trans hx.2⟩
  have calm : Calm { c with clock := now } c' → TInv cfg c' ∧ Grows { c with clock := now } c' :=
    fun h => ⟨ht0.calm h, h.grows⟩
  cases e with
  | submit r =>
    cases hr
    simp only [Client.submitRequest]
    split
    · refine create_time ht0 hlt _ _ rfl ?_
      intro hu
      have := ht0.started
      simp only [Config.timeout] at hu this ⊢
      rw [Nat.mod_eq_of_lt hu]
      omega
    · exact ⟨ht0, .refl _⟩
  | openStream f =>
    cases hr
    simp only [Client.openStream]
    split
    · exact create_time ht0 hlt _ _ rfl (fun _ => never_pos)
    · exact ⟨ht0, .refl _⟩
  | activate id =>
    refine calm ?_
    simp only [stepAt, Client.activate] at hr
    split at hr
    · cases hr
    · rename_i op hg
      split at hr
      · cases hr; exact .refl _
      · cases hr; exact ⟨List.prefix_rfl, key_set hg rfl, rfl, rfl, rfl, rfl, rfl⟩
  | close id =>
    refine calm ?_
    simp only [stepAt, Client.close] at hr
    split at hr
    · cases hr
    · rename_i op hg
      refine Calm.trans ?_ (releaseOp_calm hr)
      exact ⟨List.prefix_append _ _, key_set hg rfl, rfl, rfl, rfl, rfl, rfl⟩
  | release =>
    cases hr
    exact calm ⟨List.prefix_rfl, fun _ => rfl, rfl, rfl, rfl, rfl, rfl⟩
  | task env k =>
    obtain ⟨t, a1, a2, _⟩ := he
    simp only [stepAt, a1] at hr
    have hc : Calm { c with clock := now } { c with clock := now, tasks := c.tasks.eraseIdx k } :=
      ⟨List.prefix_rfl, fun _ => rfl, rfl, rfl, rfl, rfl, rfl⟩
    obtain ⟨b1, b2⟩ := run_time (ht0.calm hc) (t := t) (env := env) (by
      rcases a2 with a2 | a2
      · exact .inl a2
      · refine .inr ?_
        intro hx
        have := h.initTask
        rw [if_pos hx, List.nil_append, List.count_eq_zero.2 a2] at this
        cases this) hr
    exact ⟨b1, hc.grows.trans b2⟩
  | service env expired =>
    obtain ⟨_, _, hp, _⟩ := he
    obtain ⟨b1, b2, _⟩ := service_time h0 ht0 (fun i hi => (List.mem_filter.1 (hp.mem_iff.1 hi)).1) hr
    exact ⟨b1, b2⟩
  | finished env f a ok retryable =>
    refine calm ?_
    simp only [stepAt] at hr
    split at hr
    · cases hr; exact .refl _
    · exact manage_calm hr
  | connection env up joined =>
    refine calm ?_
    simp only [stepAt] at hr
    split at hr
    · cases hr; exact .refl _
    · exact manage_calm hr
  | publish msg => exact calm (onPublish_calm hr)
  | publishDone id ok => exact calm (publishDone_calm hr)
  | adapterTerminated =>
    cases hr
    exact calm ⟨List.prefix_rfl, fun _ => rfl, rfl, rfl, rfl, rfl, rfl⟩
  | terminate =>
    simp only [stepAt] at hr
    split at hr
    · cases hr
    · cases hr; exact calm ⟨List.prefix_append _ _, fun _ => rfl, rfl, rfl, rfl, rfl, rfl⟩

theorem rehash_calm {cfg : Config} {strict : Bool} {c c' : Client} (h : Inv cfg strict [] c) (hr : Rehash c c') :
    Calm c c' := by
  have ho : ∀ j, c'.ops.get j = c.ops.get j := fun j => AMap.get_perm h.nodup hr.ops j
  refine ⟨?_, fun id => by rw [ho], ?_, ?_, ?_, ?_, ?_⟩
  · rw [hr.same]; exact List.prefix_rfl
  all_goals rw [hr.same]

theorem reachable_time {cfg : Config} {allowed : Client → Event → Prop} {c : Client} (h : Reachable cfg allowed c) :
    TInv cfg c := by
  induction h with
  | new => exact ⟨Nat.le_refl _, (by intro _ id op r hg; cases hg), fun _ => rfl, (by intro _ id op hg; cases hg), (by simp)⟩
  | step hc _ hn he _ hr ih => exact (step_time (reachable_inv hc (by simp)) ih hn he hr).1
  | rehash hc hr ih => exact ih.calm (rehash_calm (reachable_inv hc (strict := false) (by simp)) hr)

theorem Later.reachable {cfg : Config} {allowed : Client → Event → Prop} {c c' : Client} (h : Later cfg allowed c c')
    (hc : Reachable cfg allowed c) : Reachable cfg allowed c' := by
  induction h with
  | refl => exact hc
  | step _ h1 h2 h3 h4 h5 ih => exact ih.step h1 h2 h3 h4 h5
  | rehash _ h1 ih => exact ih.rehash h1

theorem Later.grows {cfg : Config} {allowed : Client → Event → Prop} {c c' : Client} (h : Later cfg allowed c c')
    (hc : Reachable cfg allowed c) : Grows c c' := by
  induction h with
  | refl => exact .refl _
  | step hl h1 h2 h3 h4 h5 ih =>
    have hr := hl.reachable hc
    exact ih.trans (step_time (reachable_inv hr (by simp)) (reachable_time hr) h2 h3 h5).2
  | rehash hl h1 ih =>
    exact ih.trans (rehash_calm (reachable_inv (hl.reachable hc) (strict := false) (by simp)) h1).grows

end Mqtt.RrClient
