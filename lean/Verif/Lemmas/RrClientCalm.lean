import Verif.Lemmas.RrClientInv

/-! What steps of the request-response client leave alone: timeouts of operations and the log so far. -/
namespace Mqtt.RrClient

open Mqtt.Rr (Kind Status StatusType Action Acquired Manager)

/-- What stays the same for an operation. -/
def Op.key (op : Op) : Body × Nat × Bool := (op.body, op.timeout, op.tracked)

/-- Nothing happens to timeouts. -/
structure Calm (c c' : Client) : Prop where
  log : c.log <+: c'.log
  ops : ∀ id, (c'.ops.get id).map Op.key = (c.ops.get id).map Op.key
  timeouts : c'.timeouts = c.timeouts
  scheduled : c'.scheduled = c.scheduled
  phase : c'.phase = c.phase
  clock : c'.clock = c.clock
  nextId : c'.nextId = c.nextId

theorem Calm.refl (c : Client) : Calm c c := ⟨List.prefix_rfl, fun _ => rfl, rfl, rfl, rfl, rfl, rfl⟩

theorem Calm.trans {a b c : Client} (h : Calm a b) (h' : Calm b c) : Calm a c :=
  ⟨h.log.trans h'.log, fun id => (h'.ops id).trans (h.ops id), h'.timeouts.trans h.timeouts,
    h'.scheduled.trans h.scheduled, h'.phase.trans h.phase, h'.clock.trans h.clock, h'.nextId.trans h.nextId⟩

theorem key_set {m : AMap Nat Op} {id : Nat} {op op' : Op} (hg : m.get id = some op) (hk : op'.key = op.key) (j : Nat) :
    ((m.set id op').get j).map Op.key = (m.get j).map Op.key := by
  rw [AMap.get_set]
  split
  · rename_i e
    rw [e, hg]
    simp [hk]
  · rfl

/-- An operation changes, and entries are added to the log. -/
theorem Calm.set {c : Client} {id : Nat} {op op' : Op} (es : List Trace) (tasks : List Task) (publishes : List Nat)
    (hg : c.ops.get id = some op) (hk : op'.key = op.key) :
    Calm c { c with ops := c.ops.set id op', log := c.log ++ es, tasks := tasks, publishes := publishes } :=
  ⟨List.prefix_append _ _, key_set hg hk, rfl, rfl, rfl, rfl, rfl⟩

theorem releaseOp_calm {c c' : Client} {id : Nat} (h : c.releaseOp id = .ok c') : Calm c c' := by
  unfold Client.releaseOp at h
  split at h
  · cases h
  · rename_i op hg
    simp only [Except.ok.injEq] at h
    rw [← h]
    split
    all_goals exact ⟨List.prefix_rfl, key_set hg rfl, rfl, rfl, rfl, rfl, rfl⟩

theorem failRequest_calm {c c' : Client} {id : Nat} {e : Failure} (h : c.failRequest id e = .ok c') : Calm c c' := by
  unfold Client.failRequest at h
  split at h
  · cases h
  · rename_i op hg
    split at h
    · cases h
    · split at h
      · cases h; exact .refl _
      · refine Calm.trans ?_ (releaseOp_calm h)
        exact ⟨by simp, key_set hg rfl, rfl, rfl, rfl, rfl, rfl⟩

theorem halt_calm {c c' : Client} {id : Nat} {e : Failure} (h : c.halt id e = .ok c') : Calm c c' := by
  unfold Client.halt at h
  split at h
  · cases h
  · rename_i op hg
    split at h
    · cases h
    · split at h
      · cases h; exact .refl _
      · cases h; exact ⟨List.prefix_append _ _, key_set hg rfl, rfl, rfl, rfl, rfl, rfl⟩

theorem failOp_calm {c c' : Client} {id : Nat} {e : Failure} (h : c.failOp id e = .ok c') : Calm c c' := by
  unfold Client.failOp at h
  split at h
  · cases h
  · split at h
    · exact halt_calm h
    · exact failRequest_calm h

theorem absorb_calm {c c' : Client} {m : Manager} (h : c.absorb m = .ok c') : Calm c c' := by
  unfold Client.absorb at h
  simp only at h
  split at h
  · cases h
  · cases h; exact ⟨List.prefix_rfl, fun _ => rfl, rfl, rfl, rfl, rfl, rfl⟩

theorem manage_calm {c c' : Client} {m : Except Rr.Fault Manager} (h : c.manage m = .ok c') : Calm c c' := by
  unfold Client.manage at h
  split at h
  · cases h
  · exact absorb_calm h

theorem publishDone_calm {c c' : Client} {id : Nat} {ok : Bool} (h : c.publishDone id ok = .ok c') : Calm c c' := by
  unfold Client.publishDone at h
  have h0 : Calm c { c with publishes := c.publishes.erase id } := ⟨List.prefix_rfl, fun _ => rfl, rfl, rfl, rfl, rfl, rfl⟩
  simp only at h
  split at h
  · cases h; exact h0
  · split at h
    · cases h; exact h0
    · split at h
      · exact h0.trans (failRequest_calm h)
      · cases h; exact h0

theorem makeRequest_calm {c c' : Client} {env : Env} {id : Nat} (h : c.makeRequest env id = .ok c') : Calm c c' := by
  unfold Client.makeRequest at h
  split at h
  · cases h
  · split at h
    · cases h
    · split at h
      · cases h; exact ⟨List.prefix_append _ _, fun _ => rfl, rfl, rfl, rfl, rfl, rfl⟩
      · exact failRequest_calm h

theorem requestStatus_calm {c c' : Client} {env : Env} {id : Nat} {t : StatusType} (h : c.requestStatus env id t = .ok c') :
    Calm c c' := by
  unfold Client.requestStatus at h
  split at h
  · cases h
  · rename_i op hg
    split at h
    · exact failRequest_calm h
    · exact failRequest_calm h
    · split at h
      · split at h
        · refine Calm.trans ?_ (makeRequest_calm h)
          exact ⟨by simp, key_set hg rfl, rfl, rfl, rfl, rfl, rfl⟩
        · cases h; exact ⟨List.prefix_rfl, key_set hg rfl, rfl, rfl, rfl, rfl, rfl⟩
      · cases h; exact .refl _
    · cases h

theorem streamStatus_calm {c c' : Client} {id : Nat} {t : StatusType} (h : c.streamStatus id t = .ok c') : Calm c c' := by
  unfold Client.streamStatus at h
  split at h
  · cases h
  · rename_i op hg
    split at h
    · cases h
      exact ⟨List.prefix_append _ _, key_set hg (by split <;> rfl), rfl, rfl, rfl, rfl, rfl⟩
    · cases h; exact ⟨List.prefix_append _ _, fun _ => rfl, rfl, rfl, rfl, rfl, rfl⟩
    · exact halt_calm h
    · cases h

theorem each_calm {g : Client → Nat → Except Fault Client} (hg : ∀ c i c', g c i = .ok c' → Calm c c') {is : List Nat}
    {c c' : Client} (h : each g c is = .ok c') : Calm c c' := by
  induction is generalizing c with
  | nil => cases h; exact .refl _
  | cons i is ih =>
    unfold each at h
    split at h
    · cases h
    · rename_i c1 h1
      exact (hg _ _ _ h1).trans (ih h)

theorem deliver_calm {c c' : Client} {msg : Message} {ids : List Nat} (h : c.deliver msg ids = .ok c') : Calm c c' := by
  refine each_calm ?_ h
  intro c i c' h
  unfold Client.deliverOne at h
  split at h
  · cases h
  · split at h
    · cases h; exact .refl _
    · split at h
      · cases h; exact .refl _
      · cases h; exact ⟨List.prefix_append _ _, fun _ => rfl, rfl, rfl, rfl, rfl, rfl⟩

theorem deliverWildcards_calm {m : AMap Bytes (List Nat)} {c c' : Client} {msg : Message}
    (h : Client.deliverWildcards msg c m = .ok c') : Calm c c' := by
  induction m generalizing c with
  | nil => cases h; exact .refl _
  | cons x m ih =>
    obtain ⟨f, ids⟩ := x
    unfold Client.deliverWildcards at h
    split at h
    · split at h
      · cases h
      · rename_i c1 h1
        exact (deliver_calm h1).trans (ih h)
    · exact ih h

theorem respond_calm {c c' : Client} {t : Bytes} {msg : Message} (h : c.respond t msg = .ok c') : Calm c c' := by
  unfold Client.respond at h
  split at h
  · cases h; exact .refl _
  · split at h
    · cases h
    · rename_i op hg
      split at h
      · cases h
      · split at h
        · cases h; exact .refl _
        · refine Calm.trans ?_ (releaseOp_calm h)
          exact ⟨by simp, key_set hg rfl, rfl, rfl, rfl, rfl, rfl⟩

theorem onPublish_calm {cfg : Config} {c c' : Client} {msg : Message} (h : c.onPublish cfg msg = .ok c') : Calm c c' := by
  unfold Client.onPublish at h
  split at h
  · cases h; exact .refl _
  · split at h
    · cases h
    · rename_i c1 h1
      have h1 : Calm c c1 := by
        unfold Client.deliverExact at h1
        split at h1
        · cases h1; exact .refl _
        · exact deliver_calm h1
      split at h
      · cases h
      · rename_i c2 h2
        have h2 := h1.trans (deliverWildcards_calm h2)
        split at h
        · cases h; exact h2
        · unfold Client.applyResponse at h
          split at h
          · cases h; exact h2
          · exact h2.trans (respond_calm h)

theorem addToTables_calm {c : Client} {id : Nat} {op : Op} (hg : c.ops.get id = some op) : Calm c (c.addToTables id op) := by
  unfold Client.addToTables
  simp only
  split
  · split
    all_goals exact ⟨List.prefix_rfl, key_set hg rfl, rfl, rfl, rfl, rfl, rfl⟩
  · exact ⟨List.prefix_rfl, key_set hg rfl, rfl, rfl, rfl, rfl, rfl⟩

theorem setState_calm (c : Client) (id : Nat) (s : OpState) : Calm c (c.setState id s) := by
  unfold Client.setState
  split
  · exact .refl _
  · rename_i op hg
    exact ⟨List.prefix_rfl, key_set hg rfl, rfl, rfl, rfl, rfl, rfl⟩

theorem onAcquired_calm {c c' : Client} {env : Env} {id : Nat} {res : Acquired} (h : c.onAcquired env id res = .ok c') :
    Calm c c' := by
  unfold Client.onAcquired at h
  split at h
  · cases h
  · rename_i op hg
    split at h
    · exact failOp_calm h
    · exact failOp_calm h
    · cases h; exact .refl _
    · cases h; exact (addToTables_calm hg).trans (setState_calm ..)
    · simp only at h
      split at h
      · cases h
        refine ((addToTables_calm hg).trans (setState_calm _ id .subscribed)).trans ?_
        exact ⟨List.prefix_append _ _, fun _ => rfl, rfl, rfl, rfl, rfl, rfl⟩
      · exact (addToTables_calm hg).trans (makeRequest_calm h)

theorem dequeue_calm {cfg : Config} {env : Env} {q : List Nat} {c c' : Client} (h : Client.dequeue cfg env c q = .ok c') :
    Calm c c' := by
  induction q generalizing c with
  | nil => cases h; exact .refl _
  | cons id q ih =>
    unfold Client.dequeue at h
    split at h
    · cases h
    · split at h
      · split at h
        · cases h
        · split at h
          · cases h
          · rename_i c1 h1
            have h1 := absorb_calm h1
            split at h
            · cases h; exact h1
            · split at h
              · cases h
              · rename_i c2 h2
                have h0 : Calm c1 { c1 with queue := q } := ⟨List.prefix_rfl, fun _ => rfl, rfl, rfl, rfl, rfl, rfl⟩
                exact ((h1.trans h0).trans (onAcquired_calm h2)).trans (ih h)
      · cases h; exact .refl _

theorem processQueue_calm {cfg : Config} {env : Env} {c c' : Client} (h : c.processQueue cfg env = .ok c') : Calm c c' := by
  unfold Client.processQueue at h
  split at h
  · cases h
  · rename_i c1 h1
    exact (manage_calm h1).trans (dequeue_calm h)

theorem Calm.timeoutOf {c c' : Client} (h : Calm c c') (id : Nat) : c'.timeoutOf id = c.timeoutOf id := by
  have := h.ops id
  unfold Client.timeoutOf
  cases h1 : c.ops.get id <;> cases h2 : c'.ops.get id <;> rw [h1, h2] at this <;> simp [Op.key] at this <;> simp [this]

theorem Calm.back {c c' : Client} (h : Calm c c') {id : Nat} {op' : Op} (hg : c'.ops.get id = some op') :
    ∃ op, c.ops.get id = some op ∧ op'.body = op.body ∧ op'.timeout = op.timeout ∧ op'.tracked = op.tracked := by
  have := h.ops id
  rw [hg] at this
  cases h1 : c.ops.get id with
  | none => rw [h1] at this; cases this
  | some op =>
    rw [h1] at this
    simp only [Option.map_some, Option.some.injEq, Op.key, Prod.mk.injEq] at this
    exact ⟨op, rfl, this⟩

theorem completions_prefix {l l' : List Trace} (h : l <+: l') (id : Nat) : completions l id ≤ completions l' id := by
  obtain ⟨t, rfl⟩ := h
  rw [completions_append]
  omega

end Mqtt.RrClient
