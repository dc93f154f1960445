import Verif.Lemmas.RrClientTime
import Verif.Lemmas.RrFed

/-! When the request-response client publishes requests: an account of the subscriptions each request waits for. -/
namespace Mqtt.RrClient

open Mqtt.Rr (Kind Status StatusType Action Acquired Manager matchesType told)

/-- A success that waits to be delivered to an operation. -/
def isSuccessTask (id : Nat) : Task → Bool
  | .status s => s.type == .subscribeSuccess && s.op == id
  | _ => false

/-- How many of them there are. -/
def waiting (l : List Task) (id : Nat) : Nat := l.countP (isSuccessTask id)

theorem waiting_append (a b : List Task) (id : Nat) : waiting (a ++ b) id = waiting a id + waiting b id :=
  List.countP_append

/-- Some filter was not established when the request acquired it. -/
def Late (log : List Rr.Trace) (r : Request) (id : Nat) : Prop :=
  ∃ f ∈ r.filters, ∃ a b k, log = a ++ .acquired id f k :: b ∧ Rr.broker a f = false

theorem Late.mono {log log' : List Rr.Trace} {r : Request} {id : Nat} (h : Late log r id) (hp : log <+: log') :
    Late log' r id := by
  obtain ⟨f, hf, a, b, k, rfl, hb⟩ := h
  obtain ⟨t, rfl⟩ := hp
  exact ⟨f, hf, a, b ++ t, k, by simp, hb⟩

/-- The account of a request that is not completed. -/
structure PubOk (cur : List Task) (c : Client) (id : Nat) (op : Op) (r : Request) : Prop where
  entered : op.inTables = true → c.phase = .active ∧ (Trace.published id r.topic r.payload ∈ c.log ∨
    op.state = .pendingSubscription ∧ 1 ≤ op.pendingSubs ∧
      op.pendingSubs + told c.manager.log id = r.filters.length + waiting (cur ++ c.tasks) id ∧ Late c.manager.log r id)
  before : op.inTables = false → op.pendingSubs = r.filters.length ∧ r.filters ≠ [] ∧ told c.manager.log id = 0 ∧
    waiting (cur ++ c.tasks) id = 0 ∧ (op.tracked = true → id ∈ c.queue)

/-- The account of all requests but some. -/
structure Pub (skip : Nat → Prop) (cur : List Task) (c : Client) : Prop where
  ops : c.phase ≠ .shuttingDown → ∀ id op r, ¬ skip id → c.ops.get id = some op → op.body = .request r →
    completions c.log id = 0 → PubOk cur c id op r
  fresh : c.phase ≠ .shuttingDown → ∀ id, c.nextId ≤ id → told c.manager.log id = 0 ∧ waiting (cur ++ c.tasks) id = 0

/-- Nothing happens to the account. -/
structure Still (skip : Nat → Prop) (c c' : Client) : Prop where
  log : c.log <+: c'.log
  phase : c'.phase = c.phase
  nextId : c.nextId ≤ c'.nextId
  mlog : c.manager.log <+: c'.manager.log
  told : ∀ i, told c'.manager.log i = told c.manager.log i
  waiting : ∀ i, waiting c'.tasks i = waiting c.tasks i
  ops : ∀ id op' r, ¬ skip id → c'.ops.get id = some op' → op'.body = .request r → completions c'.log id = 0 →
    ∃ op, c.ops.get id = some op ∧ op.body = .request r ∧ op'.state = op.state ∧ op'.pendingSubs = op.pendingSubs ∧
      op'.inTables = op.inTables ∧ op'.tracked = op.tracked ∧ (id ∈ c.queue → id ∈ c'.queue)

theorem Still.refl {skip : Nat → Prop} (c : Client) : Still skip c c :=
  ⟨List.prefix_rfl, rfl, Nat.le_refl _, List.prefix_rfl, fun _ => rfl, fun _ => rfl,
    fun _ op' _ _ h h' _ => ⟨op', h, h', rfl, rfl, rfl, rfl, fun x => x⟩⟩

theorem Still.trans {skip : Nat → Prop} {a b c : Client} (h : Still skip a b) (h' : Still skip b c) : Still skip a c := by
  refine ⟨h.log.trans h'.log, h'.phase.trans h.phase, Nat.le_trans h.nextId h'.nextId, h.mlog.trans h'.mlog,
    fun i => (h'.told i).trans (h.told i), fun i => (h'.waiting i).trans (h.waiting i), ?_⟩
  intro id op' r hs hg hb hc
  obtain ⟨o1, a1, a2, a3, a4, a5, a6, a7⟩ := h'.ops id op' r hs hg hb hc
  have := completions_prefix h'.log id
  obtain ⟨o2, b1, b2, b3, b4, b5, b6, b7⟩ := h.ops id o1 r hs a1 a2 (by omega)
  exact ⟨o2, b1, b2, a3.trans b3, a4.trans b4, a5.trans b5, a6.trans b6, fun x => a7 (b7 x)⟩

theorem Still.mono {skip skip' : Nat → Prop} {c c' : Client} (h : Still skip c c') (hs : ∀ i, skip i → skip' i) :
    Still skip' c c' :=
  { h with ops := fun id op' r hn => h.ops id op' r (fun hx => hn (hs _ hx)) }

theorem Pub.still {skip : Nat → Prop} {cur : List Task} {c c' : Client} (h : Pub skip cur c) (hs : Still skip c c') :
    Pub skip cur c' := by
  have hw : ∀ i, RrClient.waiting (cur ++ c'.tasks) i = RrClient.waiting (cur ++ c.tasks) i := by
    intro i; rw [waiting_append, waiting_append, hs.waiting]
  refine ⟨?_, ?_⟩
  · intro hp id op' r hk hg hb hc
    rw [hs.phase] at hp
    obtain ⟨op, a1, a2, a3, a4, a5, a6, a7⟩ := hs.ops id op' r hk hg hb hc
    have := completions_prefix hs.log id
    obtain ⟨h1, h2⟩ := h.ops hp id op r hk a1 a2 (by omega)
    refine ⟨?_, ?_⟩
    · rw [a5, a3, a4, hs.phase, hs.told, hw]
      intro hx
      obtain ⟨b1, b2⟩ := h1 hx
      refine ⟨b1, ?_⟩
      rcases b2 with b2 | ⟨b2, b3, b4, b5⟩
      · exact .inl (hs.log.subset b2)
      · exact .inr ⟨b2, b3, b4, b5.mono hs.mlog⟩
    · rw [a5, a4, a6, hs.told, hw]
      intro hx
      obtain ⟨b1, b2, b3, b4, b5⟩ := h2 hx
      exact ⟨b1, b2, b3, b4, fun y => a7 (b5 y)⟩
  · intro hp id hi
    rw [hs.phase] at hp
    rw [hs.told, hw]
    exact h.fresh hp id (Nat.le_trans hs.nextId hi)

/-- Fields the account does not depend on change. -/
theorem Still.env {skip : Nat → Prop} {c c' : Client} (ho : c'.ops = c.ops) (hl : c.log <+: c'.log)
    (hp : c'.phase = c.phase) (hn : c'.nextId = c.nextId) (hm : c'.manager = c.manager) (hq : c'.queue = c.queue)
    (ht : ∀ i, RrClient.waiting c'.tasks i = RrClient.waiting c.tasks i) : Still skip c c' := by
  refine ⟨hl, hp, Nat.le_of_eq hn.symm, by rw [hm]; exact List.prefix_rfl, by rw [hm]; exact fun _ => rfl, ht, ?_⟩
  rw [ho, hq]
  exact fun _ op' _ _ h h' _ => ⟨op', h, h', rfl, rfl, rfl, rfl, fun x => x⟩

/-- An operation changes that is not a request, is left out, or is completed. -/
theorem Still.set {skip : Nat → Prop} {c c' : Client} {id : Nat} {op op' : Op} (hg : c.ops.get id = some op)
    (ho : c'.ops = c.ops.set id op') (hl : c.log <+: c'.log) (hp : c'.phase = c.phase) (hn : c'.nextId = c.nextId)
    (hm : c'.manager = c.manager) (hq : c'.queue = c.queue) (ht : ∀ i, RrClient.waiting c'.tasks i = RrClient.waiting c.tasks i)
    (h : (∃ f, op'.body = .stream f) ∨ skip id ∨ completions c'.log id ≠ 0 ∨ (op'.body = op.body ∧ op'.state = op.state ∧
      op'.pendingSubs = op.pendingSubs ∧ op'.inTables = op.inTables ∧ op'.tracked = op.tracked)) : Still skip c c' := by
  refine ⟨hl, hp, Nat.le_of_eq hn.symm, by rw [hm]; exact List.prefix_rfl, by rw [hm]; exact fun _ => rfl, ht, ?_⟩
  intro j o r hk hgo hb hc
  rw [ho, AMap.get_set] at hgo
  split at hgo
  · rename_i e
    subst e
    cases hgo
    rcases h with ⟨f, h⟩ | h | h | ⟨h1, h2, h3, h4, h5⟩
    · rw [h] at hb; cases hb
    · exact absurd h hk
    · exact absurd hc h
    · exact ⟨op, hg, by rw [← h1]; exact hb, h2, h3, h4, h5, by rw [hq]; exact fun x => x⟩
  · exact ⟨o, hgo, hb, rfl, rfl, rfl, rfl, by rw [hq]; exact fun x => x⟩

variable {skip : Nat → Prop}

theorem releaseOp_still {c c' : Client} {id : Nat} (h : c.releaseOp id = .ok c') : Still skip c c' := by
  unfold Client.releaseOp at h
  split at h
  · cases h
  · rename_i op hg
    simp only [Except.ok.injEq] at h
    rw [← h]
    split
    · exact .set hg rfl List.prefix_rfl rfl rfl rfl rfl (fun i => by simp [waiting, isSuccessTask])
        (.inr (.inr (.inr ⟨rfl, rfl, rfl, rfl, rfl⟩)))
    · exact .set hg rfl List.prefix_rfl rfl rfl rfl rfl (fun _ => rfl) (.inr (.inr (.inr ⟨rfl, rfl, rfl, rfl, rfl⟩)))

/-- A completion callback is invoked. -/
theorem finish_still {c c' : Client} {id : Nat} {op : Op} {e : Trace} (hg : c.ops.get id = some op)
    (he : isCompletion id e = true)
    (h : Client.releaseOp { c with ops := c.ops.set id { op with state := .pendingDestroy }, log := c.log ++ [e] } id = .ok c') :
    Still skip c c' := by
  refine Still.trans ?_ (releaseOp_still h)
  refine .set hg rfl (by simp) rfl rfl rfl rfl (fun _ => rfl) (.inr (.inr (.inl ?_)))
  simp only
  rw [completions_append]
  have : completions [e] id = 1 := by simp [completions, he]
  omega

theorem failRequest_still {c c' : Client} {id : Nat} {e : Failure} (h : c.failRequest id e = .ok c') : Still skip c c' := by
  unfold Client.failRequest at h
  split at h
  · cases h
  · rename_i op hg
    split at h
    · cases h
    · split at h
      · cases h; exact .refl _
      · exact finish_still hg (by simp [isCompletion]) h

theorem halt_still {c c' : Client} {id : Nat} {e : Failure} (h : c.halt id e = .ok c') : Still skip c c' := by
  unfold Client.halt at h
  split at h
  · cases h
  · rename_i op hg
    split at h
    · cases h
    · rename_i f hb
      split at h
      · cases h; exact .refl _
      · cases h
        exact .set hg rfl (by simp) rfl rfl rfl rfl (fun _ => rfl) (.inl ⟨f, hb⟩)

theorem failOp_still {c c' : Client} {id : Nat} {e : Failure} (h : c.failOp id e = .ok c') : Still skip c c' := by
  unfold Client.failOp at h
  split at h
  · cases h
  · split at h
    · exact halt_still h
    · exact failRequest_still h

theorem publishDone_still {c c' : Client} {id : Nat} {ok : Bool} (h : c.publishDone id ok = .ok c') : Still skip c c' := by
  unfold Client.publishDone at h
  have h0 : Still skip c { c with publishes := c.publishes.erase id } :=
    .env rfl List.prefix_rfl rfl rfl rfl rfl (fun _ => rfl)
  simp only at h
  split at h
  · cases h; exact h0
  · split at h
    · cases h; exact h0
    · split at h
      · exact h0.trans (failRequest_still h)
      · cases h; exact h0

theorem makeRequest_still {c c' : Client} {env : Env} {id : Nat} (h : c.makeRequest env id = .ok c') : Still skip c c' := by
  unfold Client.makeRequest at h
  split at h
  · cases h
  · split at h
    · cases h
    · split at h
      · cases h; exact .env rfl (by simp) rfl rfl rfl rfl (fun _ => rfl)
      · exact failRequest_still h

theorem streamStatus_still {c c' : Client} {id : Nat} {t : StatusType}
    (hs : ∀ op, c.ops.get id = some op → ∃ f, op.body = .stream f) (h : c.streamStatus id t = .ok c') :
    Still skip c c' := by
  unfold Client.streamStatus at h
  split at h
  · cases h
  · rename_i op hg
    split at h
    · cases h
      refine .set hg rfl (by simp) rfl rfl rfl rfl (fun _ => rfl) (.inl ?_)
      obtain ⟨f, hf⟩ := hs op hg
      refine ⟨f, ?_⟩
      split <;> exact hf
    · cases h; exact .env rfl (by simp) rfl rfl rfl rfl (fun _ => rfl)
    · exact halt_still h
    · cases h

theorem each_still {g : Client → Nat → Except Fault Client} (hg : ∀ c i c', g c i = .ok c' → Still skip c c') {is : List Nat}
    {c c' : Client} (h : each g c is = .ok c') : Still skip c c' := by
  induction is generalizing c with
  | nil => cases h; exact .refl _
  | cons i is ih =>
    unfold each at h
    split at h
    · cases h
    · rename_i c1 h1
      exact (hg _ _ _ h1).trans (ih h)

theorem deliver_still {c c' : Client} {msg : Message} {ids : List Nat} (h : c.deliver msg ids = .ok c') : Still skip c c' := by
  refine each_still ?_ h
  intro c i c' h
  unfold Client.deliverOne at h
  split at h
  · cases h
  · split at h
    · cases h; exact .refl _
    · split at h
      · cases h; exact .refl _
      · cases h; exact .env rfl (by simp) rfl rfl rfl rfl (fun _ => rfl)

theorem deliverWildcards_still {m : AMap Bytes (List Nat)} {c c' : Client} {msg : Message}
    (h : Client.deliverWildcards msg c m = .ok c') : Still skip c c' := by
  induction m generalizing c with
  | nil => cases h; exact .refl _
  | cons x m ih =>
    obtain ⟨f, ids⟩ := x
    unfold Client.deliverWildcards at h
    split at h
    · split at h
      · cases h
      · rename_i c1 h1
        exact (deliver_still h1).trans (ih h)
    · exact ih h

theorem respond_still {c c' : Client} {t : Bytes} {msg : Message} (h : c.respond t msg = .ok c') : Still skip c c' := by
  unfold Client.respond at h
  split at h
  · cases h; exact .refl _
  · split at h
    · cases h
    · rename_i op hg
      split at h
      · cases h
      · split at h
        · cases h; exact .refl _
        · exact finish_still hg (by simp [isCompletion]) h

theorem onPublish_still {cfg : Config} {c c' : Client} {msg : Message} (h : c.onPublish cfg msg = .ok c') :
    Still skip c c' := by
  unfold Client.onPublish at h
  split at h
  · cases h; exact .refl _
  · split at h
    · cases h
    · rename_i c1 h1
      have h1 : Still skip c c1 := by
        unfold Client.deliverExact at h1
        split at h1
        · cases h1; exact .refl _
        · exact deliver_still h1
      split at h
      · cases h
      · rename_i c2 h2
        have h2 := h1.trans (deliverWildcards_still h2)
        split at h
        · cases h; exact h2
        · unfold Client.applyResponse at h
          split at h
          · cases h; exact h2
          · exact h2.trans (respond_still h)

theorem wake_still (c : Client) (now : Nat) : Still skip c (c.wake now) := by
  rw [wake_eq]
  exact .env rfl List.prefix_rfl rfl rfl rfl rfl (fun _ => rfl)

/-- Status events become tasks. -/
theorem waiting_statuses (l : List Rr.Trace) (id : Nat) : waiting ((statuses l).map .status) id = told l id := by
  induction l with
  | nil => rfl
  | cons e l ih =>
    unfold waiting told statuses at *
    cases e <;> simp_all [Rr.isSuccess, isSuccessTask, List.countP_cons]

theorem absorb_eq {c c' : Client} {m : Manager} {new : List Rr.Trace} (hm : m.log = c.manager.log ++ new)
    (h : c.absorb m = .ok c') : c' = { c with manager := m, tasks := c.tasks ++ (statuses new).map .status } := by
  unfold Client.absorb at h
  simp only at h
  split at h
  · cases h
  · cases h
    simp [hm]

/-- Nobody is told of a success. -/
theorem absorb_still {c c' : Client} {m : Manager} (hm : Rr.Mute c.manager.log m.log) (h : c.absorb m = .ok c') :
    Still skip c c' := by
  have ht := hm.told
  obtain ⟨new, e, h0⟩ := hm
  rw [absorb_eq e h]
  refine ⟨List.prefix_rfl, rfl, Nat.le_refl _, by rw [e]; exact List.prefix_append _ _, ht, ?_,
    fun _ op' _ _ h h' _ => ⟨op', h, h', rfl, rfl, rfl, rfl, fun x => x⟩⟩
  intro i
  simp only
  rw [waiting_append, waiting_statuses, h0]
  rfl

/-- Operations taken from the queue are told. -/
theorem absorb_pub {c c' : Client} {cur : List Task} {m : Manager}
    (h : Pub (fun _ => False) cur c) (he : Rr.Ext (Known c) c.manager.log m.log) (ha : c.absorb m = .ok c') :
    Pub (fun _ => False) cur c' := by
  obtain ⟨new, e, hk⟩ := he
  have hkn : ∀ id, told new id ≠ 0 → Known c .request id := by
    intro id hn
    have : 0 < told new id := by omega
    obtain ⟨x, hx, hs⟩ := List.countP_pos_iff.1 this
    cases x with
    | status s =>
      simp only [Rr.isSuccess, Bool.and_eq_true, beq_iff_eq] at hs
      rcases hk s hx with hy | hy | ⟨k, h1, h2⟩
      · rw [hs.1] at hy; cases hy
      · rw [hs.1] at hy; cases hy
      · rw [hs.1] at h1
        have : k = .request := by simpa [matchesType] using h1
        rw [this, hs.2] at h2
        exact h2
    | _ => cases hs
  rw [absorb_eq e ha]
  refine ⟨?_, ?_⟩
  · intro hp id op r _ hg hb hc
    obtain ⟨h1, h2⟩ := h.ops hp id op r (fun x => x) hg hb hc
    refine ⟨?_, ?_⟩
    · intro hx
      obtain ⟨b1, b2⟩ := h1 hx
      refine ⟨b1, ?_⟩
      rcases b2 with b2 | ⟨b2, b3, b4, b5⟩
      · exact .inl b2
      · refine .inr ⟨b2, b3, ?_, b5.mono (by rw [e]; exact List.prefix_append _ _)⟩
        simp only
        rw [e, Rr.told_append, ← List.append_assoc, waiting_append _ (List.map _ _), waiting_statuses]
        omega
    · intro hx
      obtain ⟨b1, b2, b3, b4, b5⟩ := h2 hx
      have h0 : told new id = 0 := by
        by_cases h0 : told new id = 0
        · exact h0
        · obtain ⟨k1, k2, k3⟩ := hkn id h0
          exact absurd (b5 (k3 op hg).2) k2
      refine ⟨b1, b2, ?_, ?_, b5⟩
      · simp only
        rw [e, Rr.told_append, b3, h0]
      · simp only
        rw [← List.append_assoc, waiting_append _ (List.map _ _), waiting_statuses, b4, h0]
  · intro hp id hn
    obtain ⟨h1, h2⟩ := h.fresh hp id hn
    have h0 : told new id = 0 := by
      by_cases h0 : told new id = 0
      · exact h0
      · have := (hkn id h0).1
        have hn : c.nextId ≤ id := hn
        omega
    simp only
    rw [e, Rr.told_append, ← List.append_assoc, waiting_append _ (List.map _ _), waiting_statuses, h1, h2, h0]
    exact ⟨rfl, rfl⟩

/-- The task being run is not a success for those considered. -/
theorem Pub.done {cur : List Task} {c : Client} (h : Pub skip cur c) (hc : ∀ i, ¬ skip i → waiting cur i = 0)
    (hf : ∀ i, c.nextId ≤ i → waiting cur i = 0) : Pub skip [] c := by
  refine ⟨?_, ?_⟩
  · intro hp id op r hk hg hb hcm
    obtain ⟨h1, h2⟩ := h.ops hp id op r hk hg hb hcm
    rw [waiting_append, hc id hk, Nat.zero_add] at h1 h2
    exact ⟨h1, h2⟩
  · intro hp id hn
    have := h.fresh hp id hn
    rw [waiting_append, hf id hn, Nat.zero_add] at this
    exact this

theorem Pub.take {c : Client} (h : Pub skip [] c) {k : Nat} {t : Task} (ht : c.tasks[k]? = some t) :
    Pub skip [t] { c with tasks := c.tasks.eraseIdx k } := by
  have hw : ∀ i, waiting ([t] ++ c.tasks.eraseIdx k) i = waiting ([] ++ c.tasks) i := fun i =>
    ((perm_eraseIdx ht).countP_eq _).symm
  refine ⟨?_, ?_⟩
  · intro hp id op r hk hg hb hcm
    obtain ⟨h1, h2⟩ := h.ops hp id op r hk hg hb hcm
    rw [← hw] at h1 h2
    exact ⟨h1, h2⟩
  · intro hp id hn
    have := h.fresh hp id hn
    rw [← hw] at this
    exact this

/-- The account of what was left out. -/
theorem Pub.join {cur : List Task} {c : Client} {id : Nat} (h : Pub (· = id) cur c)
    (hi : c.phase ≠ .shuttingDown → ∀ op r, c.ops.get id = some op → op.body = .request r → completions c.log id = 0 →
      PubOk cur c id op r) : Pub (fun _ => False) cur c := by
  refine ⟨?_, h.fresh⟩
  intro hp j op r _ hg hb hcm
  by_cases e : j = id
  · subst e; exact hi hp op r hg hb hcm
  · exact h.ops hp j op r e hg hb hcm

theorem Pub.but {cur : List Task} {c : Client} (h : Pub (fun _ => False) cur c) : Pub skip cur c :=
  ⟨fun hp id op r _ => h.ops hp id op r (fun x => x), h.fresh⟩

theorem makeRequest_published {c c' : Client} {env : Env} {id : Nat} {op : Op} {r : Request}
    (hg : c.ops.get id = some op) (hb : op.body = .request r) (hs : op.state ≠ .pendingDestroy)
    (h : c.makeRequest env id = .ok c') :
    Trace.published id r.topic r.payload ∈ c'.log ∨ completions c'.log id ≠ 0 := by
  unfold Client.makeRequest at h
  rw [hg] at h
  simp only [hb] at h
  split at h
  · cases h; exact .inl (by simp)
  · refine .inr ?_
    unfold Client.failRequest at h
    rw [hg] at h
    simp only [hb, hs, if_false] at h
    have := completions_prefix (releaseOp_calm h).log id
    simp only [completions_append] at this
    have h1 : completions [Trace.failed id .publishFailure] id = 1 := by simp [completions, isCompletion]
    omega

theorem requestStatus_pub {cfg : Config} {c c' : Client} {s : Status} {env : Env} (hi : Inv cfg false [.status s] c)
    (h : Pub (fun _ => False) [.status s] c) (hs : s.type = .subscribeSuccess)
    (hr : c.requestStatus env s.op .subscribeSuccess = .ok c') : Pub (fun _ => False) [] c' := by
  have hcalm := requestStatus_calm hr
  have hlt : s.op < c.nextId := by
    rcases hi.told s (by simp) with hy | hy | ⟨k, h1, h2⟩
    · rw [hs] at hy; cases hy
    · rw [hs] at hy; cases hy
    · exact h2.1
  have hw : ∀ i, i ≠ s.op → waiting [.status s] i = 0 := by
    intro i hne
    simp [waiting, isSuccessTask]
    exact fun _ e => hne e.symm
  have hwo : waiting [.status s] s.op = 1 := by simp [waiting, isSuccessTask, hs]
  have hst : Still (· = s.op) c c' := by
    unfold Client.requestStatus at hr
    split at hr
    · cases hr
    · rename_i op hg
      simp only at hr
      split at hr
      · split at hr
        · refine Still.trans ?_ (makeRequest_still hr)
          exact .set hg rfl List.prefix_rfl rfl rfl rfl rfl (fun _ => rfl) (.inr (.inl rfl))
        · cases hr
          exact .set hg rfl List.prefix_rfl rfl rfl rfl rfl (fun _ => rfl) (.inr (.inl rfl))
      · cases hr; exact .refl _
  have h1 : Pub (· = s.op) [] c' := (h.but.still hst).done hw (fun i hn => hw i (by
    have := hst.nextId
    omega))
  refine h1.join ?_
  intro hp op' r hg' hb' hc'
  obtain ⟨op, g1, g2, g3, g4⟩ := hcalm.back hg'
  have hb : op.body = .request r := by rw [← g2]; exact hb'
  have hc : completions c.log s.op = 0 := by have := completions_prefix hcalm.log s.op; omega
  rw [hcalm.phase] at hp
  obtain ⟨p1, p2⟩ := h.ops hp s.op op r (fun x => x) g1 hb hc
  rw [waiting_append, hwo] at p1 p2
  have hin : op.inTables = true := by
    cases hx : op.inTables with
    | true => rfl
    | false => have := (p2 hx).2.2.2.1; omega
  obtain ⟨a1, a2⟩ := p1 hin
  have ha' : c'.phase = .active := hcalm.phase.trans a1
  unfold Client.requestStatus at hr
  rw [g1] at hr
  simp only at hr
  rcases a2 with a2 | ⟨a2, a3, a4, a5⟩
  · refine ⟨fun _ => ⟨ha', .inl (hcalm.log.subset a2)⟩, fun hx => ?_⟩
    exfalso
    split at hr
    · split at hr
      · obtain ⟨o, o1, o2, o3, o4, o5, -⟩ := (makeRequest_still (skip := fun _ => False) hr).ops s.op op' r (fun x => x) hg' hb' hc'
        simp only [AMap.get_set_same, Option.some.injEq] at o1
        rw [o5, ← o1] at hx
        simp only [hin] at hx
        cases hx
      · cases hr
        simp only [AMap.get_set_same, Option.some.injEq] at hg'
        rw [← hg'] at hx
        simp only [hin] at hx
        cases hx
    · cases hr
      rw [g1] at hg'
      cases hg'
      rw [hin] at hx
      cases hx
  · rw [if_pos a2] at hr
    split at hr
    · rename_i h1
      obtain ⟨o, o1, o2, o3, o4, o5, -⟩ := (makeRequest_still (skip := fun _ => False) hr).ops s.op op' r (fun x => x) hg' hb' hc'
      simp only [AMap.get_set_same, Option.some.injEq] at o1
      have hin' : op'.inTables = true := by rw [o5, ← o1]; exact hin
      refine ⟨fun _ => ⟨ha', .inl ?_⟩, fun hx => by rw [hin'] at hx; cases hx⟩
      rcases makeRequest_published (op := { op with pendingSubs := 0, state := .pendingResponse }) (r := r) (by simp) hb
        (by simp) hr with hx | hx
      · exact hx
      · exact absurd hc' hx
    · rename_i h1
      cases hr
      simp only [AMap.get_set_same, Option.some.injEq] at hg'
      subst hg'
      refine ⟨fun _ => ⟨ha', .inr ⟨a2, ?_, ?_, a5⟩⟩, fun hx => by rw [show op.inTables = false from hx] at hin; cases hin⟩
      · simp only [decrement]
        rw [if_neg (by omega)]
        omega
      · simp only [decrement, List.nil_append]
        rw [if_neg (by omega)]
        omega

theorem onStatus_pub {cfg : Config} {c c' : Client} {s : Status} {env : Env} {now : Nat} (hi : Inv cfg false [.status s] c)
    (h : Pub (fun _ => False) [.status s] c) (hr : c.onStatus env now s = .ok c') : Pub (fun _ => False) [] c' := by
  by_cases hs : s.type = .subscribeSuccess
  · have hlt : s.op < c.nextId := by
      rcases hi.told s (by simp) with hy | hy | ⟨k, h1, h2⟩
      · rw [hs] at hy; cases hy
      · rw [hs] at hy; cases hy
      · exact h2.1
    have hw : ∀ i, i ≠ s.op → waiting [.status s] i = 0 := by
      intro i hne
      simp [waiting, isSuccessTask]
      exact fun _ e => hne e.symm
    have hwo : waiting [.status s] s.op = 1 := by simp [waiting, isSuccessTask, hs]
    unfold Client.onStatus at hr
    rw [hs] at hr
    simp only at hr
    split at hr
    · rename_i hg
      cases hr
      refine Pub.join ((h.but).done hw (fun i hn => hw i (by omega))) ?_
      intro hp op r hx
      rw [hg] at hx; cases hx
    · rename_i op hg
      split at hr
      · exact requestStatus_pub hi h hs hr
      · rename_i ht
        cases hr
        refine Pub.join ((h.but).done hw (fun i hn => hw i (by omega))) ?_
        intro hp o r hx hb hcm
        rw [hg] at hx
        cases hx
        obtain ⟨p1, p2⟩ := h.ops hp s.op op r (fun x => x) hg hb hcm
        cases hin : op.inTables with
        | true => exact absurd (hi.tables s.op op hg hin).1 ht
        | false =>
          have := (p2 hin).2.2.2.1
          rw [waiting_append, hwo] at this
          omega
  · have hw : ∀ i, waiting [.status s] i = 0 := by
      intro i
      simp [waiting, isSuccessTask, hs]
    refine Pub.done (cur := [.status s]) (h.still ?_) (fun i _ => hw i) (fun i _ => hw i)
    unfold Client.onStatus at hr
    split at hr
    · cases hr; exact wake_still ..
    · cases hr; exact wake_still ..
    · rename_i n1 n2
      split at hr
      · cases hr; exact .refl _
      · rename_i op hg
        split at hr
        · split at hr
          · rename_i ht; exact absurd ht hs
          · rename_i ht
            unfold Client.requestStatus at hr
            rw [hg, ht] at hr
            exact failRequest_still hr
          · rename_i ht
            unfold Client.requestStatus at hr
            rw [hg, ht] at hr
            exact failRequest_still hr
          · rename_i n3 n4 n5
            refine streamStatus_still ?_ hr
            intro o ho
            rw [hg] at ho
            cases ho
            rcases hi.told s (by simp) with hy | hy | ⟨k, h1, h2⟩
            · exact absurd hy n2
            · exact absurd hy n1
            · have hk := (h2.2.2 op hg).1
              rcases Body.cases op.body with hb | ⟨r, hb⟩
              · exact hb
              · rw [hb] at hk
                have hk : Kind.request = k := hk
                subst hk
                cases ht : s.type <;> rw [ht] at h1 n1 n2 n3 n4 n5 <;> simp_all [matchesType]
        · cases hr; exact .refl _


theorem destroy_still {c c' : Client} {id : Nat} (h : c.destroy id = .ok c') : Still skip c c' := by
  unfold Client.destroy at h
  split at h
  · cases h
  · rename_i op hg
    simp only at h
    split at h
    · cases h
    · rename_i c1 h1
      have h2 : c1.queue = c.queue.filter (· != id) ∧ c1.ops = c.ops ∧ c1.log = c.log ∧ c1.phase = c.phase ∧
          c1.nextId = c.nextId ∧ Rr.Mute c.manager.log c1.manager.log ∧ ∀ i, waiting c1.tasks i = waiting c.tasks i := by
        split at h1
        · obtain ⟨m1, m2⟩ := Rr.release_hush (m := c.manager) (op := id) op.body.filters
          have hst := (absorb_still (skip := skip) (c := { c with
            timeouts := c.timeouts.filter (· != id)
            queue := c.queue.filter (· != id)
            streams := dropFrom c.streams id
            wildcards := dropFrom c.wildcards id }) (Rr.Hush.mute ⟨m1, m2⟩) h1).waiting
          have he := absorb_eq (c := { c with
            timeouts := c.timeouts.filter (· != id)
            queue := c.queue.filter (· != id)
            streams := dropFrom c.streams id
            wildcards := dropFrom c.wildcards id }) m2.1 h1
          refine ⟨by rw [he], by rw [he], by rw [he], by rw [he], by rw [he], ?_, hst⟩
          rw [he]
          exact Rr.Hush.mute ⟨m1, m2⟩
        · cases h1
          exact ⟨rfl, rfl, rfl, rfl, rfl, .refl, fun _ => rfl⟩
      obtain ⟨e1, e2, e3, e4, e5, e6, e7⟩ := h2
      have h3 : c'.queue = c1.queue ∧ c'.ops = c1.ops.del id ∧ c1.log <+: c'.log ∧ c'.phase = c1.phase ∧
          c'.nextId = c1.nextId ∧ c'.manager = c1.manager ∧ c'.tasks = c1.tasks := by
        simp only [Except.ok.injEq] at h
        rw [← h]
        unfold Client.removeFromTables
        rcases Body.cases op.body with ⟨f, hb⟩ | ⟨r, hb⟩
        · simp [hb]
        · simp only [hb]
          split <;> exact ⟨rfl, rfl, List.prefix_rfl, rfl, rfl, rfl, rfl⟩
      obtain ⟨f1, f2, f3, f4, f5, f6, f7⟩ := h3
      refine ⟨by rw [← e3]; exact f3, f4.trans e4, by rw [f5, e5]; exact Nat.le_refl _, ?_, ?_, ?_, ?_⟩
      · rw [f6]
        obtain ⟨new, e, _⟩ := e6
        rw [e]
        exact List.prefix_append _ _
      · intro i; rw [f6]; exact e6.told i
      · intro i; rw [f7]; exact e7 i
      · intro j o r _ hgo hb _
        rw [f2, e2, AMap.get_del] at hgo
        split at hgo
        · cases hgo
        · rename_i hne
          refine ⟨o, hgo, hb, rfl, rfl, rfl, rfl, ?_⟩
          rw [f1, e1]
          intro hx
          exact List.mem_filter.2 ⟨hx, by simpa using hne⟩

theorem submit_pub {cfg : Config} {c c' : Client} {now id : Nat} (hi : Inv cfg false [.submit id] c)
    (h : Pub (fun _ => False) [.submit id] c) (hr : c.submit now id = .ok c') : Pub (fun _ => False) [] c' := by
  have hw : ∀ i, waiting [.submit id] i = 0 := fun i => rfl
  have h0 : Pub (fun _ => False) [] c := h.done (fun i _ => hw i) (fun i _ => hw i)
  unfold Client.submit at hr
  split at hr
  · cases hr
  · rename_i op hg
    split at hr
    · split at hr
      · cases hr
      · rename_i c1 h1
        exact h0.still ((failOp_still h1).trans (releaseOp_still hr))
    · simp only at hr
      have htr : op.tracked = false := by
        have hid := hi.ids id
        unfold IdOk at hid
        rw [hg] at hid
        cases ht : op.tracked with
        | false => rfl
        | true => have := hid.2.1 ht; simp at this
      have hin : op.inTables = false := by
        cases hx : op.inTables with
        | false => rfl
        | true => rw [(hi.tables id op hg hx).1] at htr; cases htr
      refine Pub.still ?_ ((wake_still _ now).trans (releaseOp_still hr))
      refine ⟨?_, h0.fresh⟩
      intro hp j o r _ hgo hb hcm
      simp only at hgo
      rw [AMap.get_set] at hgo
      split at hgo
      · rename_i e
        subst e
        cases hgo
        obtain ⟨p1, p2⟩ := h0.ops hp j op r (fun x => x) hg hb hcm
        obtain ⟨q1, q2, q3, q4, q5⟩ := p2 hin
        refine ⟨fun hx => ?_, fun _ => ⟨q1, q2, q3, q4, fun _ => by simp⟩⟩
        rw [show op.inTables = true from hx] at hin
        cases hin
      · obtain ⟨p1, p2⟩ := h0.ops hp j o r (fun x => x) hgo hb hcm
        refine ⟨p1, fun hx => ?_⟩
        obtain ⟨q1, q2, q3, q4, q5⟩ := p2 hx
        exact ⟨q1, q2, q3, q4, fun hy => List.mem_append.2 (.inl (q5 hy))⟩

theorem initialize_pub {c : Client} {env : Env} (h : Pub (fun _ => False) [.initialize] c) :
    Pub (fun _ => False) [] (c.initialize env) := by
  have hw : ∀ i, waiting [.initialize] i = 0 := fun i => rfl
  have h0 : Pub (fun _ => False) [] c := h.done (fun i _ => hw i) (fun i _ => hw i)
  unfold Client.initialize
  split
  · rename_i hph
    simp only
    have hx : ∀ id, completions (c.log ++ [.initialized]) id = completions c.log id := by
      intro id; rw [completions_append]; rfl
    refine ⟨?_, ?_⟩
    · intro _ id op r hk hg hb hcm
      simp only [hx] at hcm
      obtain ⟨p1, p2⟩ := h0.ops (by rw [hph]; simp) id op r hk hg hb hcm
      refine ⟨fun hin => ?_, fun hin => ?_⟩
      · have := (p1 hin).1
        rw [hph] at this
        cases this
      · obtain ⟨q1, q2, q3, q4, q5⟩ := p2 hin
        exact ⟨q1, q2, rfl, q4, q5⟩
    · intro _ id hn
      exact ⟨rfl, (h0.fresh (by rw [hph]; simp) id hn).2⟩
  · exact h0.still (.env rfl (by simp) rfl rfl rfl rfl (fun _ => rfl))

theorem submitRequest_pub {cfg : Config} {c : Client} (h : Pub (fun _ => False) [] c) (now : Nat)
    (r : Request) : Pub (fun _ => False) [] (c.submitRequest cfg now r) := by
  unfold Client.submitRequest
  split
  · rename_i hv
    have hne : r.filters ≠ [] := by
      intro e
      simp [Request.valid, e] at hv
    have hw : ∀ i, waiting ([] ++ (c.tasks ++ [.submit c.nextId])) i = waiting ([] ++ c.tasks) i := by
      intro i; simp [waiting, isSuccessTask]
    refine ⟨?_, ?_⟩
    · intro hp id op r' _ hg hb hcm
      simp only at hg
      rw [AMap.get_set] at hg
      split at hg
      · rename_i e
        subst e
        cases hg
        cases hb
        obtain ⟨f1, f2⟩ := h.fresh hp c.nextId (Nat.le_refl _)
        refine ⟨fun hx => (by cases hx), fun _ => ⟨rfl, hne, f1, (hw _).trans f2, fun hx => (by cases hx)⟩⟩
      · have hcm' : completions c.log id = 0 := by
          rw [completions_append] at hcm
          omega
        obtain ⟨p1, p2⟩ := h.ops hp id op r' (fun x => x) hg hb hcm'
        refine ⟨fun hx => ?_, fun hx => ?_⟩
        · obtain ⟨q1, q2⟩ := p1 hx
          refine ⟨q1, ?_⟩
          simp only [hw]
          rcases q2 with q2 | q2
          · exact .inl (by simp [q2])
          · exact .inr q2
        · simp only [hw]
          exact p2 hx
    · intro hp id hn
      have hn : c.nextId + 1 ≤ id := hn
      obtain ⟨f1, f2⟩ := h.fresh hp id (by omega)
      exact ⟨f1, (hw _).trans f2⟩
  · exact h

theorem openStream_still (c : Client) (f : Bytes) : Still skip c (c.openStream f) := by
  unfold Client.openStream
  split
  · refine ⟨by simp, rfl, Nat.le_succ _, List.prefix_rfl, fun _ => rfl, fun _ => rfl, ?_⟩
    intro id op r _ hg hb _
    simp only at hg
    rw [AMap.get_set] at hg
    split at hg
    · cases hg; cases hb
    · exact ⟨op, hg, hb, rfl, rfl, rfl, rfl, fun x => x⟩
  · exact .refl _

theorem activate_still {c c' : Client} {id : Nat} (h : c.activate id = .ok c') : Still skip c c' := by
  unfold Client.activate at h
  split at h
  · cases h
  · rename_i op hg
    split at h
    · cases h; exact .refl _
    · cases h
      exact .set hg rfl List.prefix_rfl rfl rfl rfl rfl (fun i => by simp [waiting, isSuccessTask])
        (.inr (.inr (.inr ⟨rfl, rfl, rfl, rfl, rfl⟩)))

theorem close_still {c c' : Client} {id : Nat} (h : c.close id = .ok c') : Still skip c c' := by
  unfold Client.close at h
  split at h
  · cases h
  · rename_i op hg
    refine Still.trans ?_ (releaseOp_still h)
    exact .set hg rfl (by simp) rfl rfl rfl rfl (fun _ => rfl) (.inr (.inr (.inr ⟨rfl, rfl, rfl, rfl, rfl⟩)))


theorem addToTables_rest (c : Client) (id : Nat) (op : Op) :
    (c.addToTables id op).manager = c.manager ∧ (c.addToTables id op).tasks = c.tasks := by
  unfold Client.addToTables
  cases op.body with
  | request r => exact ⟨rfl, rfl⟩
  | stream f => simp only; split <;> exact ⟨rfl, rfl⟩

/-- An operation leaves the queue. -/
theorem onAcquired_pub {cfg : Config} {c c' : Client} {cur : List Task} (hi : Inv cfg false cur c)
    {id : Nat} (h : Pub (· = id) cur c) {op : Op} (hg : c.ops.get id = some op) (hp : c.phase = .active)
    (hb : ∀ r, op.body = .request r → completions c.log id = 0 → op.pendingSubs = r.filters.length ∧ r.filters ≠ [] ∧
      told c.manager.log id = 0 ∧ waiting (cur ++ c.tasks) id = 0)
    {env : Env} {res : Acquired} (hres : res ≠ .blocked)
    (hl : res = .subscribing → ∀ r, op.body = .request r → Late c.manager.log r id)
    (hr : c.onAcquired env id res = .ok c') : Pub (fun _ => False) cur c' := by
  have hcalm := onAcquired_calm hr
  obtain ⟨f1, f2, f3, f4, f5, f6⟩ := addToTables_fields c id op
  obtain ⟨f7, f8⟩ := addToTables_rest c id op
  have hset : ∀ s, (c.addToTables id op).setState id s =
      { c.addToTables id op with ops := c.ops.set id { op with inTables := true, state := s } } := by
    intro s
    simp only [Client.setState, f1, AMap.get_set_same, AMap.set_set]
  have htab : Still (· = id) c (c.addToTables id op) :=
    .set hg f1 (by rw [f2]; exact List.prefix_rfl) f4 f5 f7 f3 (by rw [f8]; exact fun _ => rfl) (.inr (.inl rfl))
  have hst : ∀ s, Still (· = id) c ((c.addToTables id op).setState id s) := by
    intro s
    rw [hset]
    exact .set hg rfl (by rw [f2]; exact List.prefix_rfl) f4 f5 f7 f3 (by rw [f8]; exact fun _ => rfl) (.inr (.inl rfl))
  unfold Client.onAcquired at hr
  rw [hg] at hr
  simp only at hr
  have hfail : ∀ e, c.failOp id e = .ok c' → Pub (fun _ => False) cur c' := by
    intro e hr
    refine (h.still (failOp_still hr)).join ?_
    intro _ op' r hg' hb' hc'
    obtain ⟨o, o1, o2, -⟩ := hcalm.back hg'
    rw [hg] at o1
    cases o1
    have := failOp_completed hi hg (by rw [← o2]; exact hb') hr
    omega
  cases res with
  | failure => exact hfail _ hr
  | noCapacity => exact hfail _ hr
  | blocked => exact absurd rfl hres
  | subscribing =>
    cases hr
    refine (h.still (hst _)).join ?_
    intro _ op' r hg' hb' hc'
    rw [hset] at hg' hc' ⊢
    simp only [AMap.get_set_same, Option.some.injEq] at hg'
    subst hg'
    obtain ⟨b1, b2, b3, b4⟩ := hb r hb' (by simpa [f2] using hc')
    refine ⟨fun _ => ⟨by simp only; rw [f4]; exact hp, .inr ⟨rfl, ?_, ?_, ?_⟩⟩, fun hx => (by cases hx)⟩
    · simp only
      rw [b1]
      exact List.length_pos_iff.2 b2
    · simp only
      rw [f7, f8, b1, b3, b4]
    · simp only
      rw [f7]
      exact hl rfl r hb'
  | subscribed =>
    simp only at hr
    split at hr
    · rename_i f hbf
      cases hr
      refine Pub.join (id := id) (h.still ((hst .subscribed).trans ?_)) ?_
      · exact .env rfl (List.prefix_append _ _) rfl rfl rfl rfl (fun _ => rfl)
      intro _ op' r hg' hb' hc'
      obtain ⟨o, o1, o2, -⟩ := hcalm.back hg'
      rw [hg] at o1
      cases o1
      rw [o2, hbf] at hb'
      cases hb'
    · rename_i r0 hbr
      refine (h.still (htab.trans (makeRequest_still hr))).join ?_
      intro _ op' r hg' hb' hc'
      obtain ⟨o, o1, o2, o3, o4, o5, o6, o7⟩ := (makeRequest_still (skip := fun _ => False) hr).ops id op' r (fun x => x) hg' hb' hc'
      rw [f1, AMap.get_set_same] at o1
      cases o1
      have hc0 : completions c.log id = 0 := by have := completions_prefix hcalm.log id; omega
      have hs : op.state ≠ .pendingDestroy := by
        obtain ⟨_, _, _, _, i5⟩ := idOk_request (hi.ids id) hg hbr
        rcases i5 with ⟨_, _, _, a4, _, _⟩ | ⟨_, _, _, a4, _⟩ | ⟨_, _, _, a4, _, _⟩
        · exact a4
        · omega
        · omega
      refine ⟨fun _ => ⟨hcalm.phase.trans hp, .inl ?_⟩, fun hx => ?_⟩
      · rcases makeRequest_published (c := c.addToTables id op) (op := { op with inTables := true }) (r := r)
          (by rw [f1, AMap.get_set_same]) o2 hs hr with hx | hx
        · exact hx
        · exact absurd hc' hx
      · rw [o5] at hx
        cases hx

theorem dequeue_pub {cfg : Config} {cur : List Task} {env : Env} : ∀ (q : List Nat) {c c' : Client},
    Inv cfg false cur c → Pub (fun _ => False) cur c → c.phase = .active → c.queue = q →
    Client.dequeue cfg env c q = .ok c' → Pub (fun _ => False) cur c' := by
  intro q
  induction q with
  | nil => intro c c' h hpub _ _ hr; cases hr; exact hpub
  | cons id q ih =>
    intro c c' h hpub hp hq hr
    have hmem : id ∈ c.queue := by rw [hq]; simp
    obtain ⟨op, hg, ht, hin⟩ := h.queue id hmem
    have hnq : id ∉ q := by
      have := h.queueNodup
      rw [hq, List.nodup_cons] at this
      exact this.1
    simp only [Client.dequeue, hg] at hr
    split at hr
    · rename_i hcan
      obtain ⟨hrm, hc⟩ := h.manager hp
      obtain ⟨res, m, e1, e2, e3⟩ := Rr.acquire_ok (Rr.reachable_minv hrm) hc env.toEnv op.body.filters id op.body.kind
      simp only [e1] at hr
      have hlt : id < c.nextId := by
        have := h.ids id
        unfold IdOk at this
        rw [hg] at this
        exact this.1
      have h0 : Inv cfg false cur { c with queue := q } := h.pop (by rw [hq]; exact List.sublist_cons_self _ _)
      have hkn : Known { c with queue := q } op.body.kind id := ⟨hlt, hnq, by
        intro o ho
        rw [show AMap.get _ id = some op from hg] at ho
        cases ho
        exact ⟨rfl, ht⟩⟩
      obtain ⟨s1, s2⟩ := Rr.acquire_sound (P := Known { c with queue := q }) (h0.kinds hp) hkn e1
      have hr' : Rr.Reachable cfg.manager m :=
        .step (e := .acquire env.toEnv op.body.filters id op.body.kind) hrm hc (by simp only [Rr.step, e1])
      obtain ⟨l, a1, a2⟩ := absorb_ok h0 hp hr' e3 s1 s2
      have habs : c.absorb m = .ok { c with manager := m, tasks := c.tasks ++ l } := by
        unfold Client.absorb at a1 ⊢
        simp only at a1 ⊢
        rw [if_neg (by rw [hp]; simp)] at a1 ⊢
        simp only [Except.ok.injEq, Client.mk.injEq] at a1 ⊢
        simp_all
      have hhush := (Rr.acquire_fed (Rr.reachable_fed hrm) e1).2
      have hst : Still (fun _ => False) c { c with manager := m, tasks := c.tasks ++ l } := absorb_still hhush.mute habs
      have hpub1 := hpub.still hst
      rw [habs] at hr
      simp only at hr
      split at hr
      · cases hr; exact hpub1
      · rename_i hnb
        obtain ⟨c2, b1, b2, b3, b4⟩ := onAcquired_ok (id := id) (op := op) a2 hg ht hin hnq
          (by
            intro r hb
            simp only [Client.canDequeue, hb] at hcan
            simpa using hcan)
          (by
            intro hk
            refine ⟨?_, fun hst => (by cases hst)⟩
            cases hb : op.body with
            | stream f => rw [hb] at hk; cases hk
            | request r =>
              obtain ⟨_, _, _, _, i5⟩ := idOk_request (h.ids id) hg hb
              simp only
              rcases i5 with ⟨_, _, _, _, a5, _⟩ | ⟨_, _, _, a4, _⟩ | ⟨_, _, _, _, _, a6⟩
              · omega
              · omega
              · exact absurd hmem a6) env res
        have hpop : Pub (· = id) cur { c with manager := m, tasks := c.tasks ++ l, queue := q } := by
          refine hpub1.but.still ?_
          refine ⟨List.prefix_rfl, rfl, Nat.le_refl _, List.prefix_rfl, fun _ => rfl, fun _ => rfl, ?_⟩
          intro j o r hne hgo hb _
          refine ⟨o, hgo, hb, rfl, rfl, rfl, rfl, ?_⟩
          intro hx
          have hx : j ∈ c.queue := hx
          rw [hq] at hx
          rcases List.mem_cons.1 hx with hx | hx
          · exact absurd hx hne
          · exact hx
        have hpub2 : Pub (fun _ => False) cur c2 := by
          refine onAcquired_pub a2 hpop (op := op) hg hp ?_ hnb ?_ b1
          · intro r hb hcm
            obtain ⟨p1, p2⟩ := hpub1.ops (by rw [show _ = Phase.active from hp]; simp) id op r (fun x => x) hg hb hcm
            obtain ⟨q1, q2, q3, q4, _⟩ := p2 hin
            exact ⟨q1, q2, q3, q4⟩
          · intro e r hb
            subst e
            rw [hb] at e1
            exact Rr.acquire_late (Rr.reachable_minv hrm) hc e1
        simp only at b1
        rw [b1] at hr
        simp only at hr
        exact ih b2 hpub2 (by rw [b4]; exact hp) b3 hr
    · cases hr; exact hpub

theorem service_pub {cfg : Config} {c c' : Client} (hi : Inv cfg false [] c) (h : Pub (fun _ => False) [] c) {env : Env}
    {expired : List Nat} (he : ∀ i ∈ expired, i ∈ c.timeouts) (hr : c.service cfg env expired = .ok c') :
    Pub (fun _ => False) [] c' := by
  unfold Client.service at hr
  have h0 : ∀ (c : Client) s, Still (fun _ => False) c { c with scheduled := s } :=
    fun c s => .env rfl List.prefix_rfl rfl rfl rfl rfl (fun _ => rfl)
  have hsch : ∀ {c : Client}, Inv cfg false [] c → ∀ s, Inv cfg false [] { c with scheduled := s } := fun h s =>
    h.env (l := []) (es := []) (by simp) (by simp) .nil (fun _ hi => hi) h.publishes (fun hx => ⟨h.manager hx, h.kinds hx⟩)
  split at hr
  · cases hr; exact h.still (h0 _ _)
  · rename_i hp
    have hp : c.phase = .active := Decidable.of_not_not hp
    obtain ⟨c1, a1, a2, a3, a4⟩ := expire_ok expired (hsch hi 0) (by
      intro i hx
      obtain ⟨op, r, o1, _, o2⟩ := hi.timeouts i (he i hx)
      exact ⟨op, o1, o2⟩) (by intro hx; cases hx)
    simp only [a1] at hr
    have h1 : Pub (fun _ => False) [] c1 := h.still ((h0 c 0).trans (each_still (by
      intro c i c' hx
      have hy : Still (fun _ => False) c { c with timeouts := c.timeouts.erase i } :=
        .env rfl List.prefix_rfl rfl rfl rfl rfl (fun _ => rfl)
      exact hy.trans (failOp_still hx)) a1))
    have hp1 : c1.phase = .active := by rw [a3]; exact hp
    split at hr
    · cases hr
    · rename_i c2 h2
      cases hr
      refine Pub.still ?_ (h0 c2 _)
      unfold Client.processQueue at h2
      obtain ⟨hrm, hc⟩ := a2.manager hp1
      obtain ⟨m, e1, e2, e3, _⟩ := Rr.purge_ok (Rr.reachable_minv hrm) hc env.toEnv
      obtain ⟨l, b1, b2⟩ := manage_ok (e := .purge env.toEnv) a2 hp1 hc e1 e3 (Rr.purge_sound (a2.kinds hp1) e1)
      simp only [Client.manage, e1, b1] at h2
      exact dequeue_pub _ b2 (h1.still (absorb_still (Rr.purge_fed (Rr.reachable_fed hrm) e1).2.mute b1)) hp1 rfl h2

theorem Pub.at {c : Client} (h : Pub skip [] c) (now : Nat) : Pub skip [] { c with clock := now } :=
  h.still (.env rfl List.prefix_rfl rfl rfl rfl rfl (fun _ => rfl))

theorem Pub.shut {cur : List Task} {c : Client} (h : c.phase = .shuttingDown) : Pub skip cur c :=
  ⟨fun hp => absurd h hp, fun hp => absurd h hp⟩

theorem step_pub {cfg : Config} {c c' : Client} (hi : Inv cfg false [] c) (hpub : Pub (fun _ => False) [] c) {now : Nat}
    {e : Event} (he : Enabled c now e) (hr : stepAt cfg { c with clock := now } now e = .ok c') :
    Pub (fun _ => False) [] c' := by
  have h0 := hpub.at now
  have hi0 := hi.at now
  cases e with
  | submit r => cases hr; exact submitRequest_pub h0 now r
  | openStream f => cases hr; exact h0.still (openStream_still _ f)
  | activate id => exact h0.still (activate_still hr)
  | close id => exact h0.still (close_still hr)
  | release =>
    cases hr
    exact h0.still (.env rfl List.prefix_rfl rfl rfl rfl rfl (fun i => by simp [waiting, isSuccessTask]))
  | task env k =>
    obtain ⟨t, a1, a2, a3⟩ := he
    have h1 := h0.take (c := { c with clock := now }) a1
    have hi1 := hi0.take (c := { c with clock := now }) a1
    simp only [stepAt, a1] at hr
    cases t with
    | «initialize» => cases hr; exact initialize_pub h1
    | status s => exact onStatus_pub hi1 h1 hr
    | submit id => exact submit_pub hi1 h1 hr
    | destroy id =>
      exact (h1.done (fun _ _ => rfl) (fun _ _ => rfl)).still (destroy_still hr)
    | shutdown =>
      refine .shut ?_
      simp only [Client.run, Client.shutdown] at hr
      split at hr
      · cases hr
      · rename_i c1 x1
        have y1 := (manage_calm x1).phase
        split at hr
        · cases hr
        · rename_i c2 x2
          have y2 := (each_calm (fun _ _ _ hx => publishDone_calm hx) x2).phase
          have y3 := (each_calm (fun _ _ _ hx => failOp_calm hx) hr).phase
          rw [y3, y2, y1]
  | service env expired =>
    obtain ⟨a1, a2, a3⟩ := he
    exact service_pub hi0 h0 (fun i hx => (List.mem_filter.1 (a3.1.mem_iff.1 hx)).1) hr
  | finished env f a ok retryable =>
    simp only [stepAt] at hr
    split at hr
    · cases hr; exact h0
    · rename_i hp
      have hp : c.phase = .active := Decidable.of_not_not hp
      unfold Client.manage at hr
      split at hr
      · cases hr
      · rename_i m hm
        exact absorb_pub h0 (Rr.onSubscription_sound (hi0.kinds hp) hm).2 hr
  | connection env up joined =>
    simp only [stepAt] at hr
    split at hr
    · cases hr; exact h0
    · rename_i hp
      have hp : c.phase = .active := Decidable.of_not_not hp
      unfold Client.manage at hr
      split at hr
      · cases hr
      · rename_i m hm
        exact absorb_pub h0 (Rr.onConnection_sound (hi0.kinds hp) hm).2 hr
  | publish msg => exact h0.still (onPublish_still hr)
  | publishDone id ok => exact h0.still (publishDone_still hr)
  | adapterTerminated => cases hr; exact h0.still (.env rfl List.prefix_rfl rfl rfl rfl rfl (fun _ => rfl))
  | terminate =>
    simp only [stepAt] at hr
    split at hr
    · cases hr
    · cases hr; exact h0.still (.env rfl (by simp) rfl rfl rfl rfl (fun _ => rfl))

theorem rehash_pub {cfg : Config} {c c' : Client} (hi : Inv cfg false [] c) (h : Pub (fun _ => False) [] c)
    (hr : Rehash c c') : Pub (fun _ => False) [] c' := by
  have ho : ∀ j, c'.ops.get j = c.ops.get j := fun j => AMap.get_perm hi.nodup hr.ops j
  have hm : c'.manager = { c.manager with records := c'.manager.records } := by
    conv => lhs; rw [hr.same]
  have hl : c'.manager.log = c.manager.log := by rw [hm]
  refine h.still ⟨by rw [hr.same]; exact List.prefix_rfl, by rw [hr.same], by rw [hr.same]; exact Nat.le_refl _,
    by rw [hl]; exact List.prefix_rfl, by rw [hl]; exact fun _ => rfl, by rw [hr.same]; exact fun _ => rfl, ?_⟩
  intro id op r _ hg hb _
  rw [ho] at hg
  exact ⟨op, hg, hb, rfl, rfl, rfl, rfl, by rw [hr.same]; exact fun x => x⟩

theorem new_pub : Pub (fun _ => False) [] ({} : Client) :=
  ⟨fun _ id op r _ hg => (by cases hg), fun _ _ _ => ⟨rfl, rfl⟩⟩

theorem reachable_pub {cfg : Config} {allowed : Client → Event → Prop} {c : Client} (h : Reachable cfg allowed c) :
    Pub (fun _ => False) [] c := by
  induction h with
  | new => exact new_pub
  | step h0 _ _ h1 h2 h3 ih => exact step_pub (reachable_inv h0 (by intro hx; cases hx)) ih h1 h3
  | rehash h0 h1 ih => exact rehash_pub (reachable_inv h0 (by intro hx; cases hx)) ih h1

end Mqtt.RrClient
