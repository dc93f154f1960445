import Verif.Lemmas.RrTakes
import Verif.Lemmas.RrClientPublish
import Batteries.Data.List.Perm

/-!
A request is published at most once, with its topic and its payload, and only when every filter has been established since
the request acquired it.
-/
namespace Mqtt.RrClient

open Mqtt.Rr (Manager Status StatusType Action Acquired Kind matchesType tells takes told Once Keep Fed)

/-- Entries that are neither a publish nor a submission. -/
def Trace.minor : Trace → Bool
  | .published .. | .submitted .. => false
  | _ => true

/-- A publish of a request. -/
def isPublish (id : Nat) : Trace → Bool
  | .published i _ _ => i == id
  | _ => false

/-- What has been published. -/
structure Pubd (c : Client) : Prop where
  content : ∀ id t p, Trace.published id t p ∈ c.log → ∃ r, Trace.submitted id r ∈ c.log ∧ t = r.topic ∧ p = r.payload
  gone : ∀ id t p, Trace.published id t p ∈ c.log → id ∉ c.queue ∧
    ∀ op, c.ops.get id = some op → op.tracked = true ∧ op.state ≠ .pendingSubscription
  single : ∀ id, c.log.countP (isPublish id) ≤ 1
  waits : ∀ id op, c.ops.get id = some op → op.state = .pendingSubscription → op.inTables = true

/-- The account of all requests, completed or not. -/
structure Due (cur : List Task) (c : Client) : Prop where
  once : Once c.manager.log
  takes : ∀ id r, Trace.submitted id r ∈ c.log → ∀ f, takes c.manager.log f id ≤ r.filters.count f
  taken : ∀ id f k, Rr.Trace.acquired id f k ∈ c.manager.log →
    id < c.nextId ∧ id ∉ c.queue ∧ ∀ op, c.ops.get id = some op → op.tracked = true
  count : ∀ id op r, c.ops.get id = some op → op.body = .request r →
    r.filters.length + waiting (cur ++ c.tasks) id ≤ told c.manager.log id + op.pendingSubs
  old : ∀ id t p, Trace.published id t p ∈ c.log → id < c.nextId
  ready : ∀ id t p r, Trace.published id t p ∈ c.log → Trace.submitted id r ∈ c.log → ∀ f ∈ r.filters,
    Fed c.manager.log f id
  blank : c.phase = .uninitialized → c.manager.log = []
  pubs : Pubd c

theorem minor_pub {log new : List Trace} (h : ∀ e ∈ new, e.minor = true) (id : Nat) (t p : Bytes)
    (hx : Trace.published id t p ∈ log ++ new) : Trace.published id t p ∈ log := by
  rcases List.mem_append.1 hx with hx | hx
  · exact hx
  · have := h _ hx
    cases this

theorem minor_sub {log new : List Trace} (h : ∀ e ∈ new, e.minor = true) (id : Nat) (r : Request)
    (hx : Trace.submitted id r ∈ log ++ new) : Trace.submitted id r ∈ log := by
  rcases List.mem_append.1 hx with hx | hx
  · exact hx
  · have := h _ hx
    cases this

theorem minor_count {log new : List Trace} (h : ∀ e ∈ new, e.minor = true) (id : Nat) :
    (log ++ new).countP (isPublish id) = log.countP (isPublish id) := by
  have h0 : new.countP (isPublish id) = 0 := by
    rw [List.countP_eq_zero]
    intro e he
    have := h e he
    cases e <;> simp_all [Trace.minor, isPublish]
  rw [List.countP_append, h0, Nat.add_zero]

/-- Nothing happens to the account. -/
structure Idle (c c' : Client) : Prop where
  log : ∃ new, c'.log = c.log ++ new ∧ ∀ e ∈ new, e.minor = true
  mlog : c'.manager.log = c.manager.log
  nextId : c.nextId ≤ c'.nextId
  waiting : ∀ i, waiting c'.tasks i = waiting c.tasks i
  queue : ∀ i ∈ c'.queue, i ∈ c.queue
  ops : ∀ id op', c'.ops.get id = some op' → (c.nextId ≤ id ∧ op'.state ≠ .pendingSubscription ∧ ∃ f, op'.body = .stream f) ∨
    ∃ op, c.ops.get id = some op ∧ op'.body = op.body ∧ (op.tracked = true → op'.tracked = true) ∧
      op'.pendingSubs = op.pendingSubs ∧ (op'.state = .pendingSubscription → op.state = .pendingSubscription ∧ (op.inTables = true → op'.inTables = true))
  phase : c'.phase = .uninitialized → c.phase = .uninitialized

theorem Idle.pub {c c' : Client} (h : Idle c c') : ∀ id t p, Trace.published id t p ∈ c'.log → Trace.published id t p ∈ c.log := by
  obtain ⟨new, e, hn⟩ := h.log
  rw [e]
  exact minor_pub hn

theorem Idle.sub {c c' : Client} (h : Idle c c') : ∀ id r, Trace.submitted id r ∈ c'.log → Trace.submitted id r ∈ c.log := by
  obtain ⟨new, e, hn⟩ := h.log
  rw [e]
  exact minor_sub hn

theorem Idle.refl (c : Client) : Idle c c :=
  ⟨⟨[], by simp, by simp⟩, rfl, Nat.le_refl _, fun _ => rfl, fun _ h => h,
    fun _ op' h => .inr ⟨op', h, rfl, fun x => x, rfl, fun x => ⟨x, fun y => y⟩⟩, fun h => h⟩

theorem Pubd.idle {c c' : Client} (h : Pubd c) (hs : Idle c c') (hold : ∀ id t p, Trace.published id t p ∈ c.log → id < c.nextId) :
    Pubd c' := by
  refine ⟨?_, ?_, ?_, ?_⟩
  · intro id t p hx
    obtain ⟨r, h1, h2⟩ := h.content id t p (hs.pub id t p hx)
    obtain ⟨new, e, _⟩ := hs.log
    exact ⟨r, by rw [e]; simp [h1], h2⟩
  · intro id t p hx
    have hx := hs.pub id t p hx
    obtain ⟨h1, h2⟩ := h.gone id t p hx
    refine ⟨fun hy => h1 (hs.queue id hy), ?_⟩
    intro op' hg
    rcases hs.ops id op' hg with ⟨h3, _⟩ | ⟨op, k1, k2, k3, k4, k5⟩
    · have := hold id t p hx
      omega
    · exact ⟨k3 (h2 op k1).1, fun e => (h2 op k1).2 (k5 e).1⟩
  · intro id
    obtain ⟨new, e, hn⟩ := hs.log
    rw [e, minor_count hn]
    exact h.single id
  · intro id op' hg hst
    rcases hs.ops id op' hg with ⟨_, h3, _⟩ | ⟨op, k1, k2, k3, k4, k5⟩
    · exact absurd hst h3
    · exact (k5 hst).2 (h.waits id op k1 (k5 hst).1)

theorem Idle.trans {a b c : Client} (h : Idle a b) (h' : Idle b c) : Idle a c := by
  refine ⟨by
    obtain ⟨n1, e1, h1⟩ := h.log
    obtain ⟨n2, e2, h2⟩ := h'.log
    refine ⟨n1 ++ n2, by rw [e2, e1]; simp, ?_⟩
    intro e he
    rcases List.mem_append.1 he with he | he
    · exact h1 e he
    · exact h2 e he, h'.mlog.trans h.mlog,
    Nat.le_trans h.nextId h'.nextId, fun i => (h'.waiting i).trans (h.waiting i), fun i hx => h.queue i (h'.queue i hx), ?_,
    fun hx => h.phase (h'.phase hx)⟩
  intro id op' hg
  rcases h'.ops id op' hg with ⟨h1, h2⟩ | ⟨o1, g1, g2, g3, g4, g5⟩
  · exact .inl ⟨Nat.le_trans h.nextId h1, h2⟩
  · rcases h.ops id o1 g1 with ⟨h1, hn, f, h2⟩ | ⟨o, k1, k2, k3, k4, k5⟩
    · by_cases hx : op'.state = .pendingSubscription
      · exact absurd (g5 hx).1 hn
      · exact .inl ⟨h1, hx, f, g2.trans h2⟩
    · exact .inr ⟨o, k1, g2.trans k2, fun x => g3 (k3 x), g4.trans k4, fun x => ⟨(k5 (g5 x).1).1, fun y => (g5 x).2 ((k5 (g5 x).1).2 y)⟩⟩

theorem Due.idle {cur : List Task} {c c' : Client} (h : Due cur c) (hs : Idle c c') : Due cur c' := by
  have hw : ∀ i, waiting (cur ++ c'.tasks) i = waiting (cur ++ c.tasks) i := fun i => by
    rw [waiting_append, waiting_append, hs.waiting]
  refine ⟨by rw [hs.mlog]; exact h.once, ?_, ?_, ?_, ?_, ?_, ?_, h.pubs.idle hs h.old⟩
  · intro id r hx f
    rw [hs.mlog]
    exact h.takes id r (hs.sub id r hx) f
  · intro id f k hx
    rw [hs.mlog] at hx
    obtain ⟨h1, h2, h3⟩ := h.taken id f k hx
    refine ⟨Nat.lt_of_lt_of_le h1 hs.nextId, fun hy => h2 (hs.queue id hy), ?_⟩
    intro op' hg
    rcases hs.ops id op' hg with ⟨h4, _⟩ | ⟨o, k1, k2, k3, k4, _⟩
    · omega
    · exact k3 (h3 o k1)
  · intro id op' r hg hb
    rcases hs.ops id op' hg with ⟨_, _, f, h4⟩ | ⟨o, k1, k2, k3, k4, _⟩
    · rw [h4] at hb; cases hb
    · rw [hw, hs.mlog, k4]
      exact h.count id o r k1 (by rw [← k2]; exact hb)
  · intro id t p hx
    exact Nat.lt_of_lt_of_le (h.old id t p (hs.pub id t p hx)) hs.nextId
  · intro id t p r hx hy f hf
    rw [hs.mlog]
    exact h.ready id t p r (hs.pub id t p hx) (hs.sub id r hy) f hf
  · intro hx
    rw [hs.mlog]
    exact h.blank (hs.phase hx)

/-- Fields the account does not depend on change. -/
theorem Idle.env {c c' : Client} (new : List Trace) (hl : c'.log = c.log ++ new) (hnew : ∀ e ∈ new, e.minor = true)
    (ho : c'.ops = c.ops) (hp : c'.phase = c.phase) (hn : c'.nextId = c.nextId) (hm : c'.manager = c.manager)
    (hq : c'.queue = c.queue) (ht : ∀ i, RrClient.waiting c'.tasks i = RrClient.waiting c.tasks i) : Idle c c' := by
  refine ⟨⟨new, hl, hnew⟩, by rw [hm], Nat.le_of_eq hn.symm, ht, by rw [hq]; exact fun _ x => x, ?_, by rw [hp]; exact fun x => x⟩
  · rw [ho]; exact fun _ op' h => .inr ⟨op', h, rfl, fun x => x, rfl, fun x => ⟨x, fun y => y⟩⟩

/-- An operation changes. -/
theorem Idle.set {c c' : Client} {id : Nat} {op op' : Op} (new : List Trace) (hg : c.ops.get id = some op)
    (hl : c'.log = c.log ++ new) (hnew : ∀ e ∈ new, e.minor = true)
    (ho : c'.ops = c.ops.set id op') (hp : c'.phase = c.phase) (hn : c'.nextId = c.nextId)
    (hm : c'.manager = c.manager) (hq : c'.queue = c.queue) (ht : ∀ i, RrClient.waiting c'.tasks i = RrClient.waiting c.tasks i)
    (h : op'.body = op.body ∧ (op.tracked = true → op'.tracked = true) ∧ op'.pendingSubs = op.pendingSubs ∧
      (op'.state = .pendingSubscription → op.state = .pendingSubscription ∧ (op.inTables = true → op'.inTables = true))) : Idle c c' := by
  refine ⟨⟨new, hl, hnew⟩, by rw [hm], Nat.le_of_eq hn.symm, ht, by rw [hq]; exact fun _ x => x, ?_, by rw [hp]; exact fun x => x⟩
  · intro j o hgo
    rw [ho, AMap.get_set] at hgo
    split at hgo
    · rename_i e
      subst e
      cases hgo
      exact .inr ⟨op, hg, h⟩
    · exact .inr ⟨o, hgo, rfl, fun x => x, rfl, fun x => ⟨x, fun y => y⟩⟩

theorem releaseOp_idle {c c' : Client} {id : Nat} (h : c.releaseOp id = .ok c') : Idle c c' := by
  unfold Client.releaseOp at h
  split at h
  · cases h
  · rename_i op hg
    simp only [Except.ok.injEq] at h
    rw [← h]
    split
    · exact .set [] hg (by simp) (by simp) rfl rfl rfl rfl rfl (fun i => by simp [waiting, isSuccessTask])
        ⟨rfl, fun x => x, rfl, fun x => ⟨x, fun y => y⟩⟩
    · exact .set [] hg (by simp) (by simp) rfl rfl rfl rfl rfl (fun _ => rfl) ⟨rfl, fun x => x, rfl, fun x => ⟨x, fun y => y⟩⟩

theorem finish_idle {c c' : Client} {id : Nat} {op : Op} {e : Trace} (hg : c.ops.get id = some op)
    (he : e.minor = true)
    (h : Client.releaseOp { c with ops := c.ops.set id { op with state := .pendingDestroy }, log := c.log ++ [e] } id = .ok c') :
    Idle c c' := by
  refine Idle.trans ?_ (releaseOp_idle h)
  exact .set [e] hg rfl (by simpa using he) rfl rfl rfl rfl rfl (fun _ => rfl) ⟨rfl, fun x => x, rfl, fun x => by cases x⟩

theorem failRequest_idle {c c' : Client} {id : Nat} {e : Failure} (h : c.failRequest id e = .ok c') : Idle c c' := by
  unfold Client.failRequest at h
  split at h
  · cases h
  · rename_i op hg
    split at h
    · cases h
    · split at h
      · cases h; exact .refl _
      · exact finish_idle hg rfl h

theorem halt_idle {c c' : Client} {id : Nat} {e : Failure} (h : c.halt id e = .ok c') : Idle c c' := by
  unfold Client.halt at h
  split at h
  · cases h
  · rename_i op hg
    split at h
    · cases h
    · split at h
      · cases h; exact .refl _
      · cases h
        exact .set _ hg rfl (by simp [Trace.minor]) rfl rfl rfl rfl rfl (fun _ => rfl) ⟨rfl, fun x => x, rfl, fun x => by cases x⟩

theorem failOp_idle {c c' : Client} {id : Nat} {e : Failure} (h : c.failOp id e = .ok c') : Idle c c' := by
  unfold Client.failOp at h
  split at h
  · cases h
  · split at h
    · exact halt_idle h
    · exact failRequest_idle h

theorem publishDone_idle {c c' : Client} {id : Nat} {ok : Bool} (h : c.publishDone id ok = .ok c') : Idle c c' := by
  unfold Client.publishDone at h
  have h0 : Idle c { c with publishes := c.publishes.erase id } :=
    .env [] (by simp) (by simp) rfl rfl rfl rfl rfl (fun _ => rfl)
  simp only at h
  split at h
  · cases h; exact h0
  · split at h
    · cases h; exact h0
    · split at h
      · exact h0.trans (failRequest_idle h)
      · cases h; exact h0

theorem streamStatus_idle {c c' : Client} {id : Nat} {t : StatusType} (h : c.streamStatus id t = .ok c') :
    Idle c c' := by
  unfold Client.streamStatus at h
  split at h
  · cases h
  · rename_i op hg
    split at h
    · cases h
      refine .set _ hg rfl (by simp [Trace.minor]) rfl rfl rfl rfl rfl (fun _ => rfl) ?_
      split
      · exact ⟨rfl, fun x => x, rfl, fun x => by cases x⟩
      · exact ⟨rfl, fun x => x, rfl, fun x => ⟨x, fun y => y⟩⟩
    · cases h; exact .env _ rfl (by simp [Trace.minor]) rfl rfl rfl rfl rfl (fun _ => rfl)
    · exact halt_idle h
    · cases h

theorem each_idle {g : Client → Nat → Except Fault Client} (hg : ∀ c i c', g c i = .ok c' → Idle c c') {is : List Nat}
    {c c' : Client} (h : each g c is = .ok c') : Idle c c' := by
  induction is generalizing c with
  | nil => cases h; exact .refl _
  | cons i is ih =>
    unfold each at h
    split at h
    · cases h
    · rename_i c1 h1
      exact (hg _ _ _ h1).trans (ih h)

theorem deliver_idle {c c' : Client} {msg : Message} {ids : List Nat} (h : c.deliver msg ids = .ok c') : Idle c c' := by
  refine each_idle ?_ h
  intro c i c' h
  unfold Client.deliverOne at h
  split at h
  · cases h
  · split at h
    · cases h; exact .refl _
    · split at h
      · cases h; exact .refl _
      · cases h; exact .env _ rfl (by simp [Trace.minor]) rfl rfl rfl rfl rfl (fun _ => rfl)

theorem deliverWildcards_idle {m : AMap Bytes (List Nat)} {c c' : Client} {msg : Message}
    (h : Client.deliverWildcards msg c m = .ok c') : Idle c c' := by
  induction m generalizing c with
  | nil => cases h; exact .refl _
  | cons x m ih =>
    obtain ⟨f, ids⟩ := x
    unfold Client.deliverWildcards at h
    split at h
    · split at h
      · cases h
      · rename_i c1 h1
        exact (deliver_idle h1).trans (ih h)
    · exact ih h

theorem respond_idle {c c' : Client} {t : Bytes} {msg : Message} (h : c.respond t msg = .ok c') : Idle c c' := by
  unfold Client.respond at h
  split at h
  · cases h; exact .refl _
  · split at h
    · cases h
    · rename_i op hg
      split at h
      · cases h
      · split at h
        · cases h; exact .refl _
        · exact finish_idle hg rfl h

theorem onPublish_idle {cfg : Config} {c c' : Client} {msg : Message} (h : c.onPublish cfg msg = .ok c') :
    Idle c c' := by
  unfold Client.onPublish at h
  split at h
  · cases h; exact .refl _
  · split at h
    · cases h
    · rename_i c1 h1
      have h1 : Idle c c1 := by
        unfold Client.deliverExact at h1
        split at h1
        · cases h1; exact .refl _
        · exact deliver_idle h1
      split at h
      · cases h
      · rename_i c2 h2
        have h2 := h1.trans (deliverWildcards_idle h2)
        split at h
        · cases h; exact h2
        · unfold Client.applyResponse at h
          split at h
          · cases h; exact h2
          · exact h2.trans (respond_idle h)

theorem wake_idle (c : Client) (now : Nat) : Idle c (c.wake now) := by
  rw [wake_eq]
  exact .env [] (by simp) (by simp) rfl rfl rfl rfl rfl (fun _ => rfl)

theorem openStream_idle (c : Client) (f : Bytes) : Idle c (c.openStream f) := by
  unfold Client.openStream
  split
  · refine ⟨⟨_, rfl, by simp [Trace.minor]⟩, rfl, Nat.le_succ _, fun _ => rfl,
      fun _ h => h, ?_, fun h => h⟩
    intro id op hg
    simp only at hg
    rw [AMap.get_set] at hg
    split at hg
    · rename_i e
      cases hg
      exact .inl ⟨Nat.le_of_eq e.symm, by simp, f, rfl⟩
    · exact .inr ⟨op, hg, rfl, fun x => x, rfl, fun x => ⟨x, fun y => y⟩⟩
  · exact .refl _

theorem activate_idle {c c' : Client} {id : Nat} (h : c.activate id = .ok c') : Idle c c' := by
  unfold Client.activate at h
  split at h
  · cases h
  · rename_i op hg
    split at h
    · cases h; exact .refl _
    · cases h
      exact .set [] hg (by simp) (by simp) rfl rfl rfl rfl rfl (fun i => by simp [waiting, isSuccessTask])
        ⟨rfl, fun x => x, rfl, fun x => ⟨x, fun y => y⟩⟩

theorem close_idle {c c' : Client} {id : Nat} (h : c.close id = .ok c') : Idle c c' := by
  unfold Client.close at h
  split at h
  · cases h
  · rename_i op hg
    refine Idle.trans ?_ (releaseOp_idle h)
    exact .set _ hg rfl (by simp [Trace.minor]) rfl rfl rfl rfl rfl (fun _ => rfl) ⟨rfl, fun x => x, rfl, fun x => ⟨x, fun y => y⟩⟩

theorem fed_prefix {log log' : List Rr.Trace} {f : Bytes} {i : Nat} (h : Fed log f i) (hp : log <+: log') : Fed log' f i := by
  obtain ⟨t, rfl⟩ := hp
  exact h.append t

theorem takes_keep {log log' : List Rr.Trace} (h : Keep log log') (f : Bytes) (i : Nat) : takes log' f i = takes log f i := by
  obtain ⟨new, rfl, hn⟩ := h
  rw [Rr.takes_append]
  have : takes new f i = 0 := by
    unfold Rr.takes
    rw [List.countP_eq_zero]
    intro e he
    cases e with
    | acquired j g k => exact absurd he (hn j g k)
    | _ => simp [Rr.isAcquired]
  omega

/-- A call of the manager in which nobody becomes a listener. -/
theorem absorb_due {cur : List Task} {c c' : Client} {m : Manager} (h : Due cur c) (hk : Keep c.manager.log m.log)
    (ho : Once m.log) (hp : c.phase ≠ .uninitialized) (ha : c.absorb m = .ok c') : Due cur c' := by
  have ht := takes_keep hk
  obtain ⟨new, e, hn⟩ := hk
  rw [absorb_eq e ha]
  refine ⟨ho, ?_, ?_, ?_, h.old, ?_, fun hx => absurd hx hp, ⟨h.pubs.content, h.pubs.gone, h.pubs.single, h.pubs.waits⟩⟩
  · intro id r hx f
    simp only
    rw [ht]
    exact h.takes id r hx f
  · intro id f k hx
    simp only at hx
    rw [e] at hx
    rcases List.mem_append.1 hx with hx | hx
    · exact h.taken id f k hx
    · exact absurd hx (hn id f k)
  · intro id op r hg hb
    have := h.count id op r hg hb
    simp only
    rw [e, Rr.told_append, ← List.append_assoc, waiting_append _ (List.map _ _), waiting_statuses]
    omega
  · intro id t p r hx hy f hf
    simp only
    rw [e]
    exact (h.ready id t p r hx hy f hf).append _

/-- Everything a request was told, as the list of filters. -/
def toldOf (log : List Rr.Trace) (i : Nat) : List Bytes :=
  log.filterMap fun e => match e with
    | .status s => if s.type = .subscribeSuccess ∧ s.op = i then some s.filter else none
    | _ => none

theorem toldOf_length (log : List Rr.Trace) (i : Nat) : (toldOf log i).length = told log i := by
  induction log with
  | nil => rfl
  | cons e log ih =>
    unfold toldOf told at *
    cases e with
    | status s =>
      rw [List.filterMap_cons, List.countP_cons]
      by_cases hs : s.type = .subscribeSuccess ∧ s.op = i
      · simp [hs, Rr.isSuccess, ih]
      · have : (s.type == .subscribeSuccess && s.op == i) = false := by
          cases hx : (s.type == .subscribeSuccess && s.op == i) with
          | false => rfl
          | true => simp only [Bool.and_eq_true, beq_iff_eq] at hx; exact absurd hx hs
        simp [hs, Rr.isSuccess, ih, this]
    | _ => simpa [Rr.isSuccess, List.countP_cons] using ih

theorem toldOf_count (log : List Rr.Trace) (i : Nat) (f : Bytes) : (toldOf log i).count f = tells log f i := by
  induction log with
  | nil => rfl
  | cons e log ih =>
    unfold toldOf tells at *
    cases e with
    | status s =>
      rw [List.filterMap_cons, List.count_cons]
      by_cases hs : s.type = .subscribeSuccess ∧ s.op = i
      · simp only [hs, and_self, if_true, List.count_cons, ih]
        congr 1
        have : (Rr.Trace.status s == .status ⟨.subscribeSuccess, f, i⟩) = (s.filter == f) := by
          rw [Bool.eq_iff_iff]
          simp only [beq_iff_eq, Rr.Trace.status.injEq]
          constructor
          · rintro rfl; rfl
          · intro e
            obtain ⟨a, b, d⟩ := s
            simp only at hs e
            rw [hs.1, hs.2, e]
        simp [this]
      · have : ¬ s = ⟨.subscribeSuccess, f, i⟩ := by
          rintro rfl
          exact hs ⟨rfl, rfl⟩
        simp [hs, ih, this]
    | _ => simpa [List.count_cons] using ih

/-- A request that was told as often as it has filters was told of each. -/
theorem told_all {log : List Rr.Trace} {fs : List Bytes} {i : Nat} (ho : Once log) (ht : ∀ f, takes log f i ≤ fs.count f)
    (hl : fs.length ≤ told log i) : ∀ f ∈ fs, Rr.Trace.status ⟨.subscribeSuccess, f, i⟩ ∈ log := by
  have hs : (toldOf log i).Subperm fs := by
    rw [List.subperm_ext_iff]
    intro f _
    rw [toldOf_count]
    exact Nat.le_trans (ho.1 f i) (ht f)
  have hp : (toldOf log i).Perm fs := hs.perm_of_length_le (by rw [toldOf_length]; exact hl)
  intro f hf
  have h1 : f ∈ toldOf log i := hp.mem_iff.2 hf
  have h2 : 0 < tells log f i := by
    rw [← toldOf_count]
    exact List.count_pos_iff.2 h1
  exact List.count_pos_iff.1 h2

/-- A request is published. -/
theorem makeRequest_due {cur : List Task} {c c' : Client} {env : Env} {id : Nat}
    (h : Due cur c) {op : Op} {r : Request} (hg : c.ops.get id = some op) (hb : op.body = .request r)
    (hi : ∀ r', Trace.submitted id r' ∈ c.log → r' = r) (hsub : Trace.submitted id r ∈ c.log)
    (hnp : ∀ t p, Trace.published id t p ∉ c.log) (hnq : id ∉ c.queue) (htr : op.tracked = true)
    (hst : op.state ≠ .pendingSubscription) (hid : id < c.nextId) (hf : ∀ f ∈ r.filters, Fed c.manager.log f id) (hr : c.makeRequest env id = .ok c') :
    Due cur c' := by
  unfold Client.makeRequest at hr
  rw [hg] at hr
  simp only [hb] at hr
  split at hr
  · cases hr
    refine ⟨h.once, ?_, h.taken, h.count, ?_, ?_, h.blank, ⟨?_, ?_, ?_, h.pubs.waits⟩⟩
    · intro j r' hx
      exact h.takes j r' (by simpa using hx)
    · intro j t p hx
      rcases List.mem_append.1 hx with hx | hx
      · exact h.old j t p hx
      · simp only [List.mem_singleton, Trace.published.injEq] at hx
        rw [hx.1]
        exact hid
    · intro j t p r' hx hy
      have hy' : Trace.submitted j r' ∈ c.log := by simpa using hy
      rcases List.mem_append.1 hx with hx | hx
      · exact h.ready j t p r' hx hy'
      · simp only [List.mem_singleton, Trace.published.injEq] at hx
        obtain ⟨rfl, _⟩ := hx
        rw [hi r' hy']
        exact hf
    · intro j t p hx
      rcases List.mem_append.1 hx with hx | hx
      · obtain ⟨r', h1, h2⟩ := h.pubs.content j t p hx
        exact ⟨r', by simp [h1], h2⟩
      · simp only [List.mem_singleton, Trace.published.injEq] at hx
        obtain ⟨rfl, rfl, rfl⟩ := hx
        exact ⟨r, by simp [hsub], rfl, rfl⟩
    · intro j t p hx
      rcases List.mem_append.1 hx with hx | hx
      · exact h.pubs.gone j t p hx
      · simp only [List.mem_singleton, Trace.published.injEq] at hx
        obtain ⟨rfl, _⟩ := hx
        refine ⟨hnq, ?_⟩
        intro o ho
        rw [show c.ops.get j = some o from ho] at hg
        cases hg
        exact ⟨htr, hst⟩
    · intro j
      have := h.pubs.single j
      simp only [List.countP_append, List.countP_singleton, isPublish, beq_iff_eq]
      split
      · rename_i e
        subst e
        have : c.log.countP (isPublish id) = 0 := by
          rw [List.countP_eq_zero]
          intro e he hx
          cases e with
          | published i t p =>
            simp only [isPublish, beq_iff_eq] at hx
            subst hx
            exact hnp t p he
          | _ => cases hx
        omega
      · omega
  · exact h.idle (failRequest_idle hr)

theorem unique_request {cfg : Config} {strict : Bool} {cur : List Task} {c : Client} (h : Inv cfg strict cur c) {id : Nat}
    {op : Op} {r : Request} (hg : c.ops.get id = some op) (hb : op.body = .request r) :
    id < c.nextId ∧ Trace.submitted id r ∈ c.log ∧ ∀ r', Trace.submitted id r' ∈ c.log → r' = r := by
  have hid := h.ids id
  unfold IdOk at hid
  rw [hg] at hid
  obtain ⟨h1, _, h2⟩ := hid
  simp only [hb] at h2
  exact ⟨h1, h2.1, h2.2.1⟩

theorem Due.done {cur : List Task} {c : Client} (h : Due cur c) : Due [] c :=
  ⟨h.once, h.takes, h.taken, fun id op r hg hb => by
    have := h.count id op r hg hb
    rw [waiting_append] at this
    rw [List.nil_append]
    omega, h.old, h.ready, h.blank, h.pubs⟩

theorem Due.take {c : Client} (h : Due [] c) {k : Nat} {t : Task} (ht : c.tasks[k]? = some t) :
    Due [t] { c with tasks := c.tasks.eraseIdx k } := by
  have hw : ∀ i, waiting ([t] ++ c.tasks.eraseIdx k) i = waiting ([] ++ c.tasks) i := fun i =>
    ((perm_eraseIdx ht).countP_eq _).symm
  refine ⟨h.once, h.takes, h.taken, ?_, h.old, h.ready, h.blank, ⟨h.pubs.content, h.pubs.gone, h.pubs.single, h.pubs.waits⟩⟩
  intro id op r hg hb
  simp only
  rw [hw]
  exact h.count id op r hg hb

theorem requestStatus_due {cfg : Config} {c c' : Client} {s : Status} {env : Env} (hi : Inv cfg false [.status s] c)
    (h : Due [.status s] c) (hs : s.type = .subscribeSuccess)
    (hr : c.requestStatus env s.op .subscribeSuccess = .ok c') : Due [] c' := by
  have hwo : waiting [.status s] s.op = 1 := by simp [waiting, isSuccessTask, hs]
  unfold Client.requestStatus at hr
  split at hr
  · cases hr
  · rename_i op hg
    simp only at hr
    split at hr
    · rename_i hpend
      have hnp : ∀ t p, Trace.published s.op t p ∉ c.log := fun t p hx => ((h.pubs.gone s.op t p hx).2 op hg).2 hpend
      have hkn : s.op ∉ c.queue ∧ op.tracked = true := by
        rcases hi.told s (by simp) with hx | hx | ⟨k, _, hx⟩
        · rw [hs] at hx; cases hx
        · rw [hs] at hx; cases hx
        · exact ⟨hx.2.1, (hx.2.2 op hg).2⟩
      have step : ∀ n st, op.pendingSubs ≤ n + 1 →
          Due [] { c with ops := c.ops.set s.op { op with pendingSubs := n, state := st } } := by
        intro n st hn
        refine ⟨h.once, h.takes, ?_, ?_, h.old, h.ready, h.blank, ⟨h.pubs.content, ?_, h.pubs.single, ?_⟩⟩
        · intro id f k hx
          obtain ⟨h1, h2, h3⟩ := h.taken id f k hx
          refine ⟨h1, h2, ?_⟩
          intro o ho
          simp only at ho
          rw [AMap.get_set] at ho
          split at ho
          · rename_i e
            subst e
            cases ho
            exact h3 op hg
          · exact h3 o ho
        · intro id o r ho hb
          simp only at ho
          rw [AMap.get_set] at ho
          split at ho
          · rename_i e
            subst e
            cases ho
            have := h.count s.op op r hg hb
            rw [waiting_append, hwo] at this
            simp only [List.nil_append]
            omega
          · exact h.done.count id o r ho hb
        · intro id t p hx
          refine ⟨(h.pubs.gone id t p hx).1, ?_⟩
          intro o ho
          simp only at ho
          rw [AMap.get_set] at ho
          split at ho
          · rename_i e
            subst e
            exact absurd hx (hnp t p)
          · exact (h.pubs.gone id t p hx).2 o ho
        · intro id o ho hst
          simp only at ho
          rw [AMap.get_set] at ho
          split at ho
          · cases ho
            exact h.pubs.waits s.op op hg hpend
          · exact h.pubs.waits id o ho hst
      split at hr
      · rename_i h1
        rcases Body.cases op.body with ⟨f, hb⟩ | ⟨r, hb⟩
        · unfold Client.makeRequest at hr
          simp [hb] at hr
        · obtain ⟨u1, u2, u3⟩ := unique_request hi hg hb
          refine makeRequest_due (step 0 .pendingResponse (by omega)) (op := { op with pendingSubs := 0, state := .pendingResponse })
            (r := r) (by simp) hb u3 u2 hnp hkn.1 hkn.2 (by simp) u1 ?_ hr
          intro f hf
          refine .inl (told_all h.once (h.takes s.op r u2) ?_ f hf)
          have := h.count s.op op r hg hb
          rw [waiting_append, hwo] at this
          omega
      · cases hr
        have := step (decrement op.pendingSubs) op.state (by
          unfold decrement
          split <;> omega)
        exact this
    · cases hr; exact h.done

theorem onStatus_due {cfg : Config} {c c' : Client} {s : Status} {env : Env} {now : Nat} (hi : Inv cfg false [.status s] c)
    (h : Due [.status s] c) (hr : c.onStatus env now s = .ok c') : Due [] c' := by
  unfold Client.onStatus at hr
  split at hr
  · cases hr; exact h.done.idle (wake_idle ..)
  · cases hr; exact h.done.idle (wake_idle ..)
  · split at hr
    · cases hr; exact h.done
    · rename_i op hg
      split at hr
      · split at hr
        · rename_i ht
          exact requestStatus_due hi h ht (ht ▸ hr)
        · rename_i ht
          unfold Client.requestStatus at hr
          rw [hg, ht] at hr
          exact h.done.idle (failRequest_idle hr)
        · rename_i ht
          unfold Client.requestStatus at hr
          rw [hg, ht] at hr
          exact h.done.idle (failRequest_idle hr)
        · exact h.done.idle (streamStatus_idle hr)
      · cases hr; exact h.done

theorem submit_due {cfg : Config} {c c' : Client} {now id : Nat} (hi : Inv cfg false [.submit id] c)
    (h : Due [] c) (hr : c.submit now id = .ok c') : Due [] c' := by
  unfold Client.submit at hr
  split at hr
  · cases hr
  · rename_i op hg
    split at hr
    · split at hr
      · cases hr
      · rename_i c1 h1
        exact h.idle ((failOp_idle h1).trans (releaseOp_idle hr))
    · simp only at hr
      have htr : op.tracked = false := by
        have hid := hi.ids id
        unfold IdOk at hid
        rw [hg] at hid
        cases ht : op.tracked with
        | false => rfl
        | true => have := hid.2.1 ht; simp at this
      refine Due.idle ?_ ((wake_idle _ now).trans (releaseOp_idle hr))
      refine ⟨h.once, h.takes, ?_, ?_, h.old, h.ready, h.blank, ⟨h.pubs.content, ?_, h.pubs.single, ?_⟩⟩
      · intro j f k hx
        obtain ⟨h1, h2, h3⟩ := h.taken j f k hx
        have hne : j ≠ id := by
          rintro rfl
          rw [h3 op hg] at htr
          cases htr
        refine ⟨h1, ?_, ?_⟩
        · simp only [List.mem_append, List.mem_singleton, not_or]
          exact ⟨h2, hne⟩
        · intro o ho
          simp only at ho
          rw [AMap.get_set, if_neg hne] at ho
          exact h3 o ho
      · intro j o r ho hb
        simp only at ho
        rw [AMap.get_set] at ho
        split at ho
        · rename_i e
          subst e
          cases ho
          exact h.count j op r hg hb
        · exact h.count j o r ho hb
      · intro j t p hx
        obtain ⟨h1, h2⟩ := h.pubs.gone j t p hx
        have hne : j ≠ id := by
          rintro rfl
          rw [(h2 op hg).1] at htr
          cases htr
        refine ⟨?_, ?_⟩
        · simp only [List.mem_append, List.mem_singleton, not_or]
          exact ⟨h1, hne⟩
        · intro o ho
          simp only at ho
          rw [AMap.get_set, if_neg hne] at ho
          exact h2 o ho
      · intro j o ho hst
        simp only at ho
        rw [AMap.get_set] at ho
        split at ho
        · rename_i e
          subst e
          cases ho
          cases hst
        · exact h.pubs.waits j o ho hst

theorem destroy_due {c c' : Client} {id : Nat} (h : Due [] c) (hr : c.destroy id = .ok c') (hp : c.phase ≠ .uninitialized) :
    Due [] c' := by
  unfold Client.destroy at hr
  split at hr
  · cases hr
  · rename_i op hg
    simp only at hr
    split at hr
    · cases hr
    · rename_i c1 h1
      have h0 : Idle c { c with
          timeouts := c.timeouts.filter (· != id)
          queue := c.queue.filter (· != id)
          streams := dropFrom c.streams id
          wildcards := dropFrom c.wildcards id } :=
        ⟨⟨[], by simp, by simp⟩, rfl, Nat.le_refl _, fun _ => rfl, fun _ h => (List.mem_filter.1 h).1,
          fun _ op' h => .inr ⟨op', h, rfl, fun x => x, rfl, fun x => ⟨x, fun y => y⟩⟩, fun h => h⟩
      have h2 : Due [] c1 := by
        split at h1
        · exact absorb_due (h.idle h0) (Rr.release_keep _) (h.once.hush (Rr.release_hush _)) hp h1
        · cases h1; exact h.idle h0
      refine h2.idle ?_
      have h3 : ∃ new, c'.log = c1.log ++ new ∧ (∀ e ∈ new, e.minor = true) ∧ c'.queue = c1.queue ∧
          c'.ops = c1.ops.del id ∧ c'.phase = c1.phase ∧
          c'.nextId = c1.nextId ∧ c'.manager = c1.manager ∧ c'.tasks = c1.tasks := by
        simp only [Except.ok.injEq] at hr
        rw [← hr]
        unfold Client.removeFromTables
        rcases Body.cases op.body with ⟨f, hb⟩ | ⟨r, hb⟩
        · exact ⟨[.closedDown id], by simp [hb, Trace.minor]⟩
        · refine ⟨[], ?_⟩
          simp only [hb]
          split <;> simp
      obtain ⟨new, e1, e2, e3, e4, e5, e6, e7, e8⟩ := h3
      refine ⟨⟨new, e1, e2⟩, by rw [e7], Nat.le_of_eq e6.symm,
        by rw [e8]; exact fun _ => rfl, by rw [e3]; exact fun _ h => h, ?_, by rw [e5]; exact fun h => h⟩
      intro j o ho
      rw [e4, AMap.get_del] at ho
      split at ho
      · cases ho
      · exact .inr ⟨o, ho, rfl, fun x => x, rfl, fun x => ⟨x, fun y => y⟩⟩

theorem initialize_due {c : Client} {env : Env} (h : Due [] c) : Due [] (c.initialize env) := by
  unfold Client.initialize
  split
  · rename_i hp
    simp only
    have hb := h.blank hp
    have hl : (Manager.new env.connected).log = c.manager.log := by rw [hb]; rfl
    refine ⟨by simp only; rw [hl]; exact h.once, ?_, by simp only; rw [hl]; exact h.taken, by simp only; rw [hl]; exact h.count, ?_, ?_,
      fun hx => (by cases hx), h.pubs.idle
        ⟨⟨_, rfl, by simp [Trace.minor]⟩, hl, Nat.le_refl _, fun _ => rfl, fun _ h => h,
          fun _ op' h => .inr ⟨op', h, rfl, fun x => x, rfl, fun x => ⟨x, fun y => y⟩⟩, fun hx => (by cases hx)⟩ h.old⟩
    · intro id r hx
      simp only
      rw [hl]
      exact h.takes id r (minor_sub (by simp [Trace.minor]) _ _ hx)
    · intro id t p hx
      exact h.old id t p (minor_pub (by simp [Trace.minor]) _ _ _ hx)
    · intro id t p r hx hy
      simp only
      rw [hl]
      exact h.ready id t p r (minor_pub (by simp [Trace.minor]) _ _ _ hx) (minor_sub (by simp [Trace.minor]) _ _ hy)
  · exact h.idle (.env _ rfl (by simp [Trace.minor]) rfl rfl rfl rfl rfl (fun _ => rfl))

theorem submitRequest_due {cfg : Config} {c : Client} (hi : Inv cfg false [] c) (h : Due [] c) (now : Nat)
    (r : Request) : Due [] (c.submitRequest cfg now r) := by
  unfold Client.submitRequest
  split
  · have hw : ∀ i, waiting ([] ++ (c.tasks ++ [.submit c.nextId])) i = waiting ([] ++ c.tasks) i := by
      intro i; simp [waiting, isSuccessTask]
    have hw0 : waiting ([] ++ c.tasks) c.nextId = 0 := by
      unfold waiting
      rw [List.countP_eq_zero]
      intro t ht
      cases t with
      | status s =>
        intro hx
        simp only [isSuccessTask, Bool.and_eq_true, beq_iff_eq] at hx
        rcases hi.told s (by simpa using ht) with hy | hy | ⟨k, _, hk⟩
        · rw [hx.1] at hy; cases hy
        · rw [hx.1] at hy; cases hy
        · have := hk.1
          omega
      | _ => simp [isSuccessTask]
    refine ⟨h.once, ?_, ?_, ?_, ?_, ?_, h.blank, ⟨?_, ?_, ?_, ?_⟩⟩
    · intro id r' hx f
      rcases List.mem_append.1 hx with hx | hx
      · exact h.takes id r' hx f
      · simp only [List.mem_singleton, Trace.submitted.injEq] at hx
        obtain ⟨rfl, rfl⟩ := hx
        have : takes c.manager.log f c.nextId = 0 := by
          unfold Rr.takes
          rw [List.countP_eq_zero]
          intro e he hx
          cases e with
          | acquired j g k =>
            simp only [Rr.isAcquired, Bool.and_eq_true, beq_iff_eq] at hx
            have := (h.taken j g k he).1
            omega
          | _ => cases hx
        simp only
        omega
    · intro id f k hx
      obtain ⟨h1, h2, h3⟩ := h.taken id f k hx
      refine ⟨Nat.lt_succ_of_lt h1, h2, ?_⟩
      intro o ho
      simp only at ho
      rw [AMap.get_set, if_neg (by omega)] at ho
      exact h3 o ho
    · intro id op r' hg hb
      simp only at hg ⊢
      rw [hw]
      rw [AMap.get_set] at hg
      split at hg
      · rename_i e
        subst e
        cases hg
        cases hb
        rw [hw0]
        simp only
        omega
      · exact h.count id op r' hg hb
    · intro id t p hx
      exact Nat.lt_succ_of_lt (h.old id t p (by simpa using hx))
    · intro id t p r' hx hy
      have hx : Trace.published id t p ∈ c.log := by simpa using hx
      rcases List.mem_append.1 hy with hy | hy
      · exact h.ready id t p r' hx hy
      · simp only [List.mem_singleton, Trace.submitted.injEq] at hy
        have := h.old id t p hx
        omega
    · intro id t p hx
      obtain ⟨r', h1, h2⟩ := h.pubs.content id t p (by simpa using hx)
      exact ⟨r', by simp [h1], h2⟩
    · intro id t p hx
      have hx : Trace.published id t p ∈ c.log := by simpa using hx
      refine ⟨(h.pubs.gone id t p hx).1, ?_⟩
      intro o ho
      simp only at ho
      have := h.old id t p hx
      rw [AMap.get_set, if_neg (by omega)] at ho
      exact (h.pubs.gone id t p hx).2 o ho
    · intro id
      have := h.pubs.single id
      simpa [isPublish] using this
    · intro id o ho hst
      simp only at ho
      rw [AMap.get_set] at ho
      split at ho
      · cases ho; cases hst
      · exact h.pubs.waits id o ho hst
  · exact h

/-- An operation leaves the queue. -/
theorem onAcquired_due {cfg : Config} {c c' : Client} {cur : List Task} (hi : Inv cfg false cur c)
    {id : Nat} (h : Due cur c) {op : Op} (hg : c.ops.get id = some op)
    (hnp : ∀ t p, Trace.published id t p ∉ c.log) (hnq : id ∉ c.queue) (htr : op.tracked = true)
    (hns : op.state ≠ .pendingSubscription) {env : Env} {res : Acquired}
    (hl : res = .subscribed → ∀ r, op.body = .request r → ∀ f ∈ r.filters, Fed c.manager.log f id)
    (hr : c.onAcquired env id res = .ok c') : Due cur c' := by
  obtain ⟨f1, f2, f3, f4, f5, f6⟩ := addToTables_fields c id op
  obtain ⟨f7, f8⟩ := addToTables_rest c id op
  have hset : ∀ s, (c.addToTables id op).setState id s =
      { c.addToTables id op with ops := c.ops.set id { op with inTables := true, state := s } } := by
    intro s
    simp only [Client.setState, f1, AMap.get_set_same, AMap.set_set]
  have htab : Idle c (c.addToTables id op) :=
    .set [] hg (by rw [f2]; simp) (by simp) f1 f4 f5 f7 f3 (by rw [f8]; exact fun _ => rfl) ⟨rfl, fun x => x, rfl, fun x => ⟨x, fun _ => rfl⟩⟩
  have hst : ∀ s, s ≠ .pendingSubscription → Idle c ((c.addToTables id op).setState id s) := by
    intro s hs
    rw [hset]
    exact .set [] hg (by simp only; rw [f2]; simp) (by simp) rfl f4 f5 f7 f3 (by rw [f8]; exact fun _ => rfl)
      ⟨rfl, fun x => x, rfl, fun x => absurd x hs⟩
  unfold Client.onAcquired at hr
  rw [hg] at hr
  simp only at hr
  cases res with
  | failure => exact h.idle (failOp_idle hr)
  | noCapacity => exact h.idle (failOp_idle hr)
  | blocked => cases hr; exact h
  | subscribing =>
    cases hr
    have h1 := h.idle (hst .subscribed (by simp))
    rw [hset] at h1 ⊢
    refine ⟨h1.once, h1.takes, ?_, ?_, h1.old, h1.ready, h1.blank, ⟨h1.pubs.content, ?_, h1.pubs.single, ?_⟩⟩
    · intro j f k hx
      obtain ⟨a1, a2, a3⟩ := h1.taken j f k hx
      refine ⟨a1, a2, ?_⟩
      intro o ho
      simp only at ho a3
      rw [AMap.get_set] at ho
      split at ho
      · cases ho; exact htr
      · rename_i hne
        exact a3 o (by rw [AMap.get_set, if_neg hne]; exact ho)
    · intro j o r ho hb
      simp only at ho
      rw [AMap.get_set] at ho
      split at ho
      · rename_i e
        subst e
        cases ho
        exact h1.count j { op with inTables := true, state := .subscribed } r (by simp) hb
      · rename_i hne
        exact h1.count j o r (by simp only; rw [AMap.get_set, if_neg hne]; exact ho) hb
    · intro j t p hx
      refine ⟨(h1.pubs.gone j t p hx).1, ?_⟩
      intro o ho
      simp only at ho
      rw [AMap.get_set] at ho
      split at ho
      · rename_i e
        subst e
        simp only [f2] at hx
        exact absurd hx (hnp t p)
      · rename_i hne
        exact (h1.pubs.gone j t p hx).2 o (by simp only; rw [AMap.get_set, if_neg hne]; exact ho)
    · intro j o ho hs
      simp only at ho
      rw [AMap.get_set] at ho
      split at ho
      · cases ho; rfl
      · rename_i hne
        exact h1.pubs.waits j o (by simp only; rw [AMap.get_set, if_neg hne]; exact ho) hs
  | subscribed =>
    simp only at hr
    split at hr
    · cases hr
      exact h.idle ((hst .subscribed (by simp)).trans (.env _ rfl (by simp [Trace.minor]) rfl rfl rfl rfl rfl (fun _ => rfl)))
    · rename_i r hb
      obtain ⟨u1, u2, u3⟩ := unique_request hi hg hb
      refine makeRequest_due (h.idle htab) (op := { op with inTables := true }) (r := r) (by rw [f1, AMap.get_set_same]) hb
        (by rw [f2]; exact u3) (by rw [f2]; exact u2) (by rw [f2]; exact hnp) (by rw [f3]; exact hnq) htr hns (by rw [f5]; exact u1) (by rw [f7]; exact hl rfl r hb) hr

theorem takes_map (fs : List Bytes) (op : Nat) (k : Kind) (f : Bytes) (i : Nat) :
    takes (fs.map fun f => .acquired op f k) f i = if i = op then fs.count f else 0 := by
  induction fs with
  | nil => simp [Rr.takes]
  | cons g fs ih =>
    unfold Rr.takes at *
    rw [List.map_cons, List.countP_cons, ih]
    by_cases hi : i = op
    · subst hi
      simp [Rr.isAcquired, List.count_cons]
    · have : ¬ op = i := fun e => hi e.symm
      simp [hi, Rr.isAcquired, this]

/-- Taking an operation from the queue. -/
theorem acquire_due {cfg : Config} {cur : List Task} {c c' : Client} {m : Manager} {id : Nat} {q : List Nat} {op : Op}
    (hi : Inv cfg false cur c) (h : Due cur c) (hp : c.phase = .active) (hq : c.queue = id :: q)
    (hg : c.ops.get id = some op) (htr : op.tracked = true) {k : Kind}
    (hk : Keep (c.manager.log ++ op.body.filters.map fun f => .acquired id f k) m.log) (ho : Once m.log)
    (ha : c.absorb m = .ok c') : Due cur { c' with queue := q } := by
  have hnq : id ∉ q := by
    have := hi.queueNodup
    rw [hq, List.nodup_cons] at this
    exact this.1
  have hfresh : ∀ f, takes c.manager.log f id = 0 := by
    intro f
    unfold Rr.takes
    rw [List.countP_eq_zero]
    intro e he hx
    cases e with
    | acquired j g k =>
      simp only [Rr.isAcquired, Bool.and_eq_true, beq_iff_eq] at hx
      have := (h.taken j g k he).2.1
      rw [hx.1, hq] at this
      simp at this
    | _ => cases hx
  have hid : id < c.nextId := by
    have := hi.ids id
    unfold IdOk at this
    rw [hg] at this
    exact this.1
  have ht := takes_keep hk
  obtain ⟨new, e, hn⟩ := hk
  rw [List.append_assoc] at e
  rw [absorb_eq e ha]
  refine ⟨ho, ?_, ?_, ?_, h.old, ?_, fun hx => (by rw [show _ = Phase.active from hp] at hx; cases hx),
    ⟨h.pubs.content, fun j t p hx => ⟨fun hy => (h.pubs.gone j t p hx).1 (by rw [hq]; exact List.mem_cons_of_mem _ hy),
      (h.pubs.gone j t p hx).2⟩, h.pubs.single, h.pubs.waits⟩⟩
  · intro j r hx f
    simp only
    rw [ht, Rr.takes_append, takes_map]
    split
    · rename_i e
      subst e
      rw [hfresh]
      rcases Body.cases op.body with ⟨g, hb⟩ | ⟨r', hb⟩
      · have hids := hi.ids j
        unfold IdOk at hids
        rw [hg] at hids
        simp only [hb] at hids
        exact absurd ⟨r, hx⟩ hids.2.2.1
      · obtain ⟨_, _, u3⟩ := unique_request hi hg hb
        rw [u3 r hx, hb]
        simp [Body.filters]
    · have := h.takes j r hx f
      omega
  · intro j f k' hx
    simp only at hx
    rw [e] at hx
    rcases List.mem_append.1 hx with hx | hx
    · obtain ⟨h1, h2, h3⟩ := h.taken j f k' hx
      refine ⟨h1, fun hy => h2 ?_, h3⟩
      rw [hq]
      exact List.mem_cons_of_mem _ hy
    · rcases List.mem_append.1 hx with hx | hx
      · obtain ⟨g, _, hx⟩ := List.mem_map.1 hx
        cases hx
        refine ⟨hid, hnq, ?_⟩
        intro o ho
        rw [show c.ops.get id = some o from ho] at hg
        cases hg
        exact htr
      · exact absurd hx (hn j f k')
  · intro j o r hgo hb
    have := h.count j o r hgo hb
    simp only
    rw [e, Rr.told_append, ← List.append_assoc, waiting_append _ (List.map _ _), waiting_statuses]
    omega
  · intro j t p r hx hy f hf
    simp only
    rw [e]
    exact (h.ready j t p r hx hy f hf).append _

theorem dequeue_due {cfg : Config} {cur : List Task} {env : Env} : ∀ (q : List Nat) {c c' : Client},
    Inv cfg false cur c → Due cur c → c.phase = .active → c.queue = q →
    Client.dequeue cfg env c q = .ok c' → Due cur c' := by
  intro q
  induction q with
  | nil => intro c c' h hdue _ _ hr; cases hr; exact hdue
  | cons id q ih =>
    intro c c' h hdue hp hq hr
    have hmem : id ∈ c.queue := by rw [hq]; simp
    obtain ⟨op, hg, ht, hin⟩ := h.queue id hmem
    have hnq : id ∉ q := by
      have := h.queueNodup
      rw [hq, List.nodup_cons] at this
      exact this.1
    simp only [Client.dequeue, hg] at hr
    split at hr
    · rename_i hcan
      obtain ⟨hrm, hc⟩ := h.manager hp
      obtain ⟨res, m, e1, e2, e3⟩ := Rr.acquire_ok (Rr.reachable_minv hrm) hc env.toEnv op.body.filters id op.body.kind
      simp only [e1] at hr
      have hlt : id < c.nextId := by
        have := h.ids id
        unfold IdOk at this
        rw [hg] at this
        exact this.1
      have h0 : Inv cfg false cur { c with queue := q } := h.pop (by rw [hq]; exact List.sublist_cons_self _ _)
      have hkn : Known { c with queue := q } op.body.kind id := ⟨hlt, hnq, by
        intro o ho
        rw [show AMap.get _ id = some op from hg] at ho
        cases ho
        exact ⟨rfl, ht⟩⟩
      obtain ⟨s1, s2⟩ := Rr.acquire_sound (P := Known { c with queue := q }) (h0.kinds hp) hkn e1
      have hr' : Rr.Reachable cfg.manager m :=
        .step (e := .acquire env.toEnv op.body.filters id op.body.kind) hrm hc (by simp only [Rr.step, e1])
      obtain ⟨l, a1, a2⟩ := absorb_ok h0 hp hr' e3 s1 s2
      have habs : c.absorb m = .ok { c with manager := m, tasks := c.tasks ++ l } := by
        unfold Client.absorb at a1 ⊢
        simp only at a1 ⊢
        rw [if_neg (by rw [hp]; simp)] at a1 ⊢
        simp only [Except.ok.injEq, Client.mk.injEq] at a1 ⊢
        simp_all
      have honce : Once m.log := (Rr.reachable_once hr').2
      have htakes := Rr.acquire_takes (Rr.reachable_fed hrm) e1
      rw [habs] at hr
      simp only at hr
      split at hr
      · rename_i hb
        subst hb
        cases hr
        rcases htakes with ⟨t1, _, _⟩ | ⟨t1, _⟩
        · refine absorb_due hdue ?_ honce (by rw [hp]; simp) habs
          rw [t1]
          exact .refl
        · exact absurd rfl t1
      · rename_i hnb
        obtain ⟨c2, b1, b2, b3, b4⟩ := onAcquired_ok (id := id) (op := op) a2 hg ht hin hnq
          (by
            intro r hb
            simp only [Client.canDequeue, hb] at hcan
            simpa using hcan)
          (by
            intro hk
            refine ⟨?_, fun hst => (by cases hst)⟩
            cases hb : op.body with
            | stream f => rw [hb] at hk; cases hk
            | request r =>
              obtain ⟨_, _, _, _, i5⟩ := idOk_request (h.ids id) hg hb
              simp only
              rcases i5 with ⟨_, _, _, _, a5, _⟩ | ⟨_, _, _, a4, _⟩ | ⟨_, _, _, _, _, a6⟩
              · omega
              · omega
              · exact absurd hmem a6) env res
        have hdue1 : Due cur { c with manager := m, tasks := c.tasks ++ l, queue := q } := by
          rcases htakes with ⟨t1, _, _⟩ | ⟨_, t2, _⟩
          · have hx := absorb_due hdue (m := m) (by rw [t1]; exact .refl) honce (by rw [hp]; simp) habs
            refine hx.idle ⟨⟨[], by simp, by simp⟩, rfl, Nat.le_refl _, fun _ => rfl, ?_,
              fun _ op' h => .inr ⟨op', h, rfl, fun x => x, rfl, fun x => ⟨x, fun y => y⟩⟩, fun h => h⟩
            intro i hx
            show i ∈ c.queue
            rw [hq]
            exact List.mem_cons_of_mem _ hx
          · exact acquire_due h hdue hp hq hg ht t2 honce habs
        have hdue2 : Due cur c2 := by
          refine onAcquired_due a2 hdue1 (op := op) hg (fun t p hx => (hdue.pubs.gone id t p hx).1 hmem) hnq ht ?_ ?_ b1
          · intro hx
            rw [hdue.pubs.waits id op hg hx] at hin
            cases hin
          intro e r hb f hf
          rcases htakes with ⟨_, t2, _⟩ | ⟨_, _, t3⟩
          · exact absurd e t2
          · obtain ⟨a, b, x1, x2⟩ := t3 e f (by rw [hb]; exact hf)
            exact .inr ⟨a, b, _, x1, x2⟩
        simp only at b1
        rw [b1] at hr
        simp only at hr
        exact ih b2 hdue2 (by rw [b4]; exact hp) b3 hr
    · cases hr; exact hdue

theorem service_due {cfg : Config} {c c' : Client} (hi : Inv cfg false [] c) (h : Due [] c) {env : Env}
    {expired : List Nat} (he : ∀ i ∈ expired, i ∈ c.timeouts) (hr : c.service cfg env expired = .ok c') :
    Due [] c' := by
  unfold Client.service at hr
  have h0 : ∀ (c : Client) s, Idle c { c with scheduled := s } :=
    fun c s => .env [] (by simp) (by simp) rfl rfl rfl rfl rfl (fun _ => rfl)
  have hsch : ∀ {c : Client}, Inv cfg false [] c → ∀ s, Inv cfg false [] { c with scheduled := s } := fun h s =>
    h.env (l := []) (es := []) (by simp) (by simp) .nil (fun _ hi => hi) h.publishes (fun hx => ⟨h.manager hx, h.kinds hx⟩)
  split at hr
  · cases hr; exact h.idle (h0 _ _)
  · rename_i hp
    have hp : c.phase = .active := Decidable.of_not_not hp
    obtain ⟨c1, a1, a2, a3, a4⟩ := expire_ok expired (hsch hi 0) (by
      intro i hx
      obtain ⟨op, r, o1, _, o2⟩ := hi.timeouts i (he i hx)
      exact ⟨op, o1, o2⟩) (by intro hx; cases hx)
    simp only [a1] at hr
    have h1 : Due [] c1 := h.idle ((h0 c 0).trans (each_idle (by
      intro c i c' hx
      have hy : Idle c { c with timeouts := c.timeouts.erase i } :=
        .env [] (by simp) (by simp) rfl rfl rfl rfl rfl (fun _ => rfl)
      exact hy.trans (failOp_idle hx)) a1))
    have hp1 : c1.phase = .active := by rw [a3]; exact hp
    split at hr
    · cases hr
    · rename_i c2 h2
      cases hr
      refine Due.idle ?_ (h0 c2 _)
      unfold Client.processQueue at h2
      obtain ⟨hrm, hc⟩ := a2.manager hp1
      obtain ⟨m, e1, e2, e3, _⟩ := Rr.purge_ok (Rr.reachable_minv hrm) hc env.toEnv
      obtain ⟨l, b1, b2⟩ := manage_ok (e := .purge env.toEnv) a2 hp1 hc e1 e3 (Rr.purge_sound (a2.kinds hp1) e1)
      simp only [Client.manage, e1, b1] at h2
      refine dequeue_due _ b2 (absorb_due h1 (Rr.purge_keep e1) ?_ (by rw [hp1]; simp) b1) hp1 rfl h2
      exact h1.once.hush (Rr.purge_once (Rr.reachable_once hrm).1 e1).2

theorem cleanUp_hush {m m' : Manager} {env : Rr.Env} (h : m.cleanUp env = .ok m') (ho : Once m.log) : Once m'.log := by
  unfold Manager.cleanUp at h
  split at h
  · cases h
  · rename_i h1
    cases h
    have := Rr.foreach_once (Pre := fun _ _ _ => True) (fun _ _ _ _ _ _ => trivial)
      (fun f r log o log' _ h => by
        cases h
        exact ⟨(by intro r' e; cases e), (Rr.unsubscribe_fed env f r true log).2.2.2⟩) (fun _ _ => trivial) h1
    exact (ho.other (by simp)).hush this.2

theorem step_due {cfg : Config} {c c' : Client} (hi : Inv cfg false [] c) (hdue : Due [] c) {now : Nat}
    {e : Event} (he : Enabled c now e) (hr : stepAt cfg { c with clock := now } now e = .ok c') :
    Due [] c' := by
  have h0 : Due [] { c with clock := now } := hdue.idle (.env [] (by simp) (by simp) rfl rfl rfl rfl rfl (fun _ => rfl))
  have hi0 := hi.at now
  cases e with
  | submit r => cases hr; exact submitRequest_due hi0 h0 now r
  | openStream f => cases hr; exact h0.idle (openStream_idle _ f)
  | activate id => exact h0.idle (activate_idle hr)
  | close id => exact h0.idle (close_idle hr)
  | release =>
    cases hr
    exact h0.idle (.env [] (by simp) (by simp) rfl rfl rfl rfl rfl (fun i => by simp [waiting, isSuccessTask]))
  | task env k =>
    obtain ⟨t, a1, a2, a3⟩ := he
    have h1 := h0.take (c := { c with clock := now }) a1
    have hi1 := hi0.take (c := { c with clock := now }) a1
    have hini : t ≠ .initialize → c.phase ≠ .uninitialized := by
      intro hne hp
      rcases a2 with a2 | a2
      · exact hne a2
      · have := hi.initTask
        rw [hp] at this
        simp only [List.nil_append, if_true] at this
        have := List.count_pos_iff.1 (by rw [this]; exact Nat.one_pos)
        exact a2 this
    simp only [stepAt, a1] at hr
    cases t with
    | «initialize» => cases hr; exact initialize_due h1.done
    | status s => exact onStatus_due hi1 h1 hr
    | submit id => exact submit_due hi1 h1.done hr
    | destroy id => exact destroy_due h1.done hr (hini (by simp))
    | shutdown =>
      simp only [Client.run, Client.shutdown] at hr
      split at hr
      · cases hr
      · rename_i c1 x1
        have y1 : Due [] c1 := by
          unfold Client.manage at x1
          split at x1
          · cases x1
          · rename_i m hm
            refine absorb_due (h1.done.idle (c' := { c with
              clock := now
              tasks := c.tasks.eraseIdx k
              phase := .shuttingDown
              scheduled := 0 }) ?_) (Rr.cleanUp_keep hm) (cleanUp_hush hm hdue.once) (by simp) x1
            exact ⟨⟨[], by simp, by simp⟩, rfl, Nat.le_refl _, fun _ => rfl, fun _ h => h,
              fun _ op' h => .inr ⟨op', h, rfl, fun x => x, rfl, fun x => ⟨x, fun y => y⟩⟩, fun h => by cases h⟩
        split at hr
        · cases hr
        · rename_i c2 x2
          exact (y1.idle (each_idle (fun _ _ _ hx => publishDone_idle hx) x2)).idle
            (each_idle (fun _ _ _ hx => failOp_idle hx) hr)
  | service env expired =>
    obtain ⟨a1, a2, a3⟩ := he
    exact service_due hi0 h0 (fun i hx => (List.mem_filter.1 (a3.1.mem_iff.1 hx)).1) hr
  | finished env f a ok retryable =>
    simp only [stepAt] at hr
    split at hr
    · cases hr; exact h0
    · rename_i hp
      have hp : c.phase = .active := Decidable.of_not_not hp
      obtain ⟨hrm, hcl⟩ := hi.manager hp
      unfold Client.manage at hr
      split at hr
      · cases hr
      · rename_i m hm
        refine absorb_due h0 (Rr.onSubscription_keep hm) ?_ (by rw [show _ = Phase.active from hp]; simp) hr
        exact (Rr.reachable_once (.step (e := .finished env.toEnv f a ok retryable) hrm ⟨hcl, he.2 hp⟩ hm)).2
  | connection env up joined =>
    simp only [stepAt] at hr
    split at hr
    · cases hr; exact h0
    · rename_i hp
      have hp : c.phase = .active := Decidable.of_not_not hp
      obtain ⟨hrm, hcl⟩ := hi.manager hp
      unfold Client.manage at hr
      split at hr
      · cases hr
      · rename_i m hm
        refine absorb_due h0 (Rr.onConnection_keep hm) ?_ (by rw [show _ = Phase.active from hp]; simp) hr
        exact (Rr.reachable_once (.step (e := .connection env.toEnv up joined) hrm hcl hm)).2
  | publish msg => exact h0.idle (onPublish_idle hr)
  | publishDone id ok => exact h0.idle (publishDone_idle hr)
  | adapterTerminated => cases hr; exact h0.idle (.env [] (by simp) (by simp) rfl rfl rfl rfl rfl (fun _ => rfl))
  | terminate =>
    simp only [stepAt] at hr
    split at hr
    · cases hr
    · cases hr; exact h0.idle (.env _ rfl (by simp [Trace.minor]) rfl rfl rfl rfl rfl (fun _ => rfl))

theorem rehash_due {cfg : Config} {c c' : Client} (hi : Inv cfg false [] c) (h : Due [] c)
    (hr : Rehash c c') : Due [] c' := by
  have ho : ∀ j, c'.ops.get j = c.ops.get j := fun j => AMap.get_perm hi.nodup hr.ops j
  have hm : c'.manager = { c.manager with records := c'.manager.records } := by
    conv => lhs; rw [hr.same]
  have hl : c'.manager.log = c.manager.log := by rw [hm]
  refine h.idle ⟨⟨[], by rw [hr.same]; simp, by simp⟩, hl,
    by rw [hr.same]; exact Nat.le_refl _, by rw [hr.same]; exact fun _ => rfl, by rw [hr.same]; exact fun _ h => h, ?_,
    by rw [hr.same]; exact fun h => h⟩
  intro id op hg
  rw [ho] at hg
  exact .inr ⟨op, hg, rfl, fun x => x, rfl, fun x => ⟨x, fun y => y⟩⟩

theorem new_due : Due [] ({} : Client) :=
  ⟨⟨fun _ _ => Nat.le_refl _, fun a b f i e => by cases a <;> cases e⟩, fun _ _ hx => (by cases hx), fun _ _ _ hx => (by cases hx), fun _ _ _ hx => (by cases hx),
    fun _ _ _ hx => (by cases hx), fun _ _ _ _ hx => (by cases hx), fun _ => rfl,
    ⟨fun _ _ _ hx => (by cases hx), fun _ _ _ hx => (by cases hx), fun _ => Nat.zero_le _, fun _ _ hx => (by cases hx)⟩⟩

theorem reachable_due {cfg : Config} {allowed : Client → Event → Prop} {c : Client} (h : Reachable cfg allowed c) :
    Due [] c := by
  induction h with
  | new => exact new_due
  | step h0 _ _ h1 h2 h3 ih => exact step_due (reachable_inv h0 (by intro hx; cases hx)) ih h1 h3
  | rehash h0 h1 ih => exact rehash_due (reachable_inv h0 (by intro hx; cases hx)) ih h1

end Mqtt.RrClient
