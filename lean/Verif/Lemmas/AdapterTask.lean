import Verif.Lemmas.AdapterLedger
import Verif.Lemmas.Client5Soft

/-!
What the tasks of the adapter do.
-/
namespace Mqtt.Adapter

open Mqtt.V5 Mqtt.SubscriptionSet
open Mqtt.Client5 (Config Client LEvent Effect Fault Desired)

/-- A client that has not said anything. -/
theorem react_silent (s : Sys) (c : Client) (h1 : c.ctl.events = s.client.ctl.events)
    (h2 : c.ops.log = s.client.ops.log) : s.react c = { s with client := c } := by
  unfold Sys.react
  rw [h1, h2]
  simp

/-- Events of a reset are of no interest. -/
theorem fold_reset (l : List LEvent) (a : Adapter) (b : Bool)
    (h : ∀ e ∈ l, e = .failure .connectionReset ∨ e = .disconnection .connectionReset) :
    l.foldl (if b then Adapter.onEvent else Adapter.overlook) a = a := by
  induction l with
  | nil => rfl
  | cons e l ih =>
    have hx : (if b then Adapter.onEvent else Adapter.overlook) a e = a := by
      rcases h e (List.mem_cons_self ..) with h1 | h1 <;> rw [h1] <;> cases b
      · rfl
      · rfl
      · rfl
      · simp [Adapter.onEvent]
    rw [List.foldl_cons, hx]
    exact ih fun e he => h e (List.mem_cons_of_mem _ he)

theorem shutdownChannel_reset (k : Client5.Control) :
    ∃ new, (k.shutdownChannel .connectionReset).events = k.events ++ new ∧
      ∀ e ∈ new, e = LEvent.failure .connectionReset ∨ e = LEvent.disconnection .connectionReset := by
  have h : ∃ new, (k.emitFinal .connectionReset).events = k.events ++ new ∧
      ∀ e ∈ new, e = LEvent.failure .connectionReset ∨ e = LEvent.disconnection .connectionReset := by
    unfold Client5.Control.emitFinal
    split
    · exact ⟨[], by simp, by simp⟩
    · exact ⟨[_], rfl, by simp⟩
    · exact ⟨[_], rfl, by simp⟩
  unfold Client5.Control.shutdownChannel
  simp only [reduceCtorEq, if_false]
  split
  · exact h
  · split
    · exact h
    · exact h

theorem react_reset (s : Sys) : s.react s.client.resetConnection = { s with client := s.client.resetConnection } := by
  have hops : s.client.resetConnection.ops = s.client.ops := (Client5.resetConnection_soft s.client).2.2
  have hev : ∃ new, s.client.resetConnection.ctl.events = s.client.ctl.events ++ new ∧
      ∀ e ∈ new, e = LEvent.failure .connectionReset ∨ e = LEvent.disconnection .connectionReset := by
    unfold Client5.Client.resetConnection
    split
    · exact shutdownChannel_reset _
    · exact shutdownChannel_reset _
    · exact ⟨[], by simp, by simp⟩
    · exact ⟨[], by simp, by simp⟩
  obtain ⟨new, h1, h2⟩ := hev
  unfold Sys.react
  rw [hops, h1, List.drop_left, List.drop_length]
  dsimp only
  rw [fold_reset _ _ _ h2]
  rfl

/-- The client after a `connect()`. -/
def connectClient (c : Client) (o : ConnectOptions) : Client :=
  (updateSettings c o).resetConnection.setDesired .connected none

/-- `connect()` while connected or connecting. -/
theorem connectTask_refuse {s : Sys} {i : Nat} {o : ConnectOptions} (h : s.ad.state ≠ .stayDisconnected) :
    s.connectTask i o = { s with ad := s.ad.note (.connectDone i .alreadyConnected) } := by
  unfold Sys.connectTask
  rw [if_pos h]

theorem connectTask_start {s : Sys} {i : Nat} {o : ConnectOptions} (h : s.ad.state = .stayDisconnected) :
    s.connectTask i o =
      { cfg := updateConfig s.cfg o
        client := connectClient s.client o
        ad := { ({ s.ad.completeDisconnect with state := .firstConnect } : Adapter).note (.connecting i) with
          onComplete := some i } } := by
  unfold Sys.connectTask
  rw [if_neg (by simp [h])]
  dsimp only
  have h1 := react_reset (Sys.mk (updateConfig s.cfg o) (updateSettings s.client o)
    (({ s.ad.completeDisconnect with state := .firstConnect } : Adapter).note (.connecting i)))
  dsimp only at h1
  rw [h1]
  dsimp only
  rw [react_silent]
  · rfl
  · rw [Client5.setDesired_none]
  · rw [Client5.setDesired_none]

theorem disconnectTask_idle {s : Sys} {i : Nat} (h : s.ad.state = .stayDisconnected) :
    s.disconnectTask i = { s with ad := s.ad.note (.disconnectDone i) } := by
  unfold Sys.disconnectTask
  rw [h]

/-- The adapter once a `disconnect()` has been taken up. -/
def Adapter.halt (a : Adapter) : Adapter :=
  { (if a.state = .firstConnect then a.completeConnect .connectionShutdown else a) with state := .stayDisconnected }

theorem disconnectTask_stop {s : Sys} {i : Nat} (h : s.ad.state ≠ .stayDisconnected) (hd : s.client.ctl.desired ≠ .stopped) :
    s.disconnectTask i =
      { s with
        client := s.client.setDesired .stopped none
        ad := { s.ad.halt with onDisconnect := some i } } := by
  unfold Sys.disconnectTask
  split
  · rename_i hs; exact absurd hs h
  · dsimp only
    rw [if_pos hd, react_silent]
    · rfl
    · rw [Client5.setDesired_none]
    · rw [Client5.setDesired_none]

theorem disconnectTask_stopped {s : Sys} {i : Nat} (h : s.ad.state ≠ .stayDisconnected) (hd : s.client.ctl.desired = .stopped) :
    s.disconnectTask i = { s with ad := (s.ad.halt.note (.disconnectDone i)).note .closed } := by
  unfold Sys.disconnectTask
  split
  · rename_i hs; exact absurd hs h
  · dsimp only
    rw [if_neg (by simp [hd])]
    rfl

/-! ## Submission -/

/-- The set of subscriptions after an operation of this kind has been submitted. -/
def SetAfter (set : SubSet) : Kind → SubSet → Prop
  | .publish _, set' => set' = set
  | .subscribe rs _ _, set' => addAll set rs = some set'
  | .resubscribe, set' => addAll set ((getSubscriptions set).map Request.ofEntry) = some set'
  | .unsubscribe f _, set' => SubscriptionSet.remove set f = some set'

/-- The outcomes of a submission. -/
inductive Submitted (s : Sys) (id : Nat) : Sys → Prop where
  | ended (op : AOp) (r : Result) : s.ad.table.get id = some op →
      op.kind = .resubscribe ∧ (r = { code := .noTopics } ∨ r = { code := .invalidOptions }) →
      Submitted s id { s with ad := s.ad.finish id op r }
  | sent (op op' : AOp) (set : SubSet) (p : Outgoing) : s.ad.table.get id = some op → op'.call = op.call →
      (KindOk op.kind → (∀ f e, (f, e) ∈ s.ad.subs.subscriptions → isValidTopicFilter f = true) →
        Client5.isUser p = true ∧ Client5.Enabled.Submittable p ∧ KindOk op'.kind) →
      (set = s.ad.subs ∨ (∃ rs, addAll s.ad.subs rs = some set) ∨ ∃ f, SubscriptionSet.remove s.ad.subs f = some set) →
      Becomes op.kind op'.kind ∧ op'.kind.packet = some p →
      SetAfter s.ad.subs op.kind set →
      Submitted s id (({ s with ad := { s.ad with subs := set } } : Sys).submitOp id op' p)

theorem newSubscribe_eq {u v : SubscribeView} (h : newSubscribe u = some v) : v = u := by
  unfold newSubscribe at h
  split at h
  · cases h
  · split at h
    · cases h
    · exact (Option.some.inj h).symm

theorem submitTask_submitted {s s' : Sys} {id : Nat} (h : s.submitTask id = .ok s') : Submitted s id s' := by
  have key : ∀ (op op' : AOp) rs v, s.ad.table.get id = some op → op'.call = op.call →
      (KindOk op.kind → (∀ f e, (f, e) ∈ s.ad.subs.subscriptions → isValidTopicFilter f = true) →
        (∃ u, newSubscribe u = some v) ∧ KindOk op'.kind) → Becomes op.kind op'.kind → (∃ m, op'.kind = .subscribe rs v m) →
      (∀ set, addAll s.ad.subs rs = some set → SetAfter s.ad.subs op.kind set) →
      s.submitSubscribe id op' rs v = .ok s' → Submitted s id s' := by
    intro op op' rs v hop hcall hok hbec hkind haft h
    unfold Sys.submitSubscribe at h
    split at h
    · cases h
    · rename_i set hset
      cases h
      exact .sent op op' _ _ hop hcall (fun h h' => ⟨rfl, (hok h h').1, (hok h h').2⟩) (.inr (.inl ⟨rs, hset⟩))
        ⟨hbec, by obtain ⟨m, hk⟩ := hkind; rw [hk]; rfl⟩ (haft _ hset)
  unfold Sys.submitTask at h
  split at h
  · cases h
  · rename_i op hop
    split at h
    · rename_i v hk
      cases h
      exact .sent op op s.ad.subs _ hop rfl (fun h _ => ⟨rfl, by rw [hk] at h; exact h, h⟩) (.inl rfl)
        ⟨.inl rfl, by rw [hk]; rfl⟩ (by rw [hk]; rfl)
    · rename_i rs v m hk
      exact key op op _ _ hop rfl (fun h _ => ⟨by rw [hk] at h; exact ⟨_, h.1⟩, h⟩) (.inl rfl) ⟨m, hk⟩
        (fun _ hx => by rw [hk]; exact hx) h
    · rename_i hk
      dsimp only at h
      split at h
      · cases h
        exact .ended op _ hop ⟨hk, .inl rfl⟩
      · split at h
        · cases h
          exact .ended op _ hop ⟨hk, .inr rfl⟩
        · rename_i v hv
          refine key op { op with kind := .subscribe _ _ true } _ _ hop rfl (fun _ hs => ⟨⟨_, hv⟩, hv, ?_⟩)
            (.inr ⟨hk, _, by rw [newSubscribe_eq hv]; rfl⟩) ⟨true, rfl⟩
            (fun _ hx => by rw [hk]; exact hx) h
          intro r hr
          obtain ⟨x, hx, rfl⟩ := List.mem_map.1 hr
          exact hs x.1 x.2 hx
    · rename_i f v hk
      split at h
      · cases h
      · rename_i set hset
        cases h
        exact .sent op op _ _ hop rfl (fun h _ => ⟨rfl, by rw [hk] at h; exact h, h⟩) (.inr (.inr ⟨f, hset⟩))
          ⟨.inl rfl, by rw [hk]; rfl⟩ (by rw [hk]; exact hset)

/-- What none of the ledgers counts. -/
theorem submitted_const {α : Type} (f : Adapter → α) {s s' : Sys} {id : Nat} (h : Submitted s id s')
    (h1 : ∀ a e, f (a.onEvent e) = f a) (h2 : ∀ a e, f (a.overlook e) = f a) (h3 : ∀ a e, f (a.onEffect e) = f a)
    (h4 : ∀ a id op r, f (Adapter.finish a id op r) = f a) (h5 : ∀ (a : Adapter) t, f { a with table := t } = f a)
    (h6 : ∀ (a : Adapter) t, f { a with subs := t } = f a) : f s'.ad = f s.ad := by
  cases h with
  | ended op r _ => exact h4 ..
  | sent op op' set p _ _ _ _ =>
    unfold Sys.submitOp
    rw [react_const f _ _ h1 h2 h3]
    exact (h5 { s.ad with subs := set } _).trans (h6 s.ad set)

/-! ## What a task does -/

def Task.isConnect : Task → Bool
  | .connect _ _ => true
  | _ => false

inductive Ran (s : Sys) : Task → Sys → Prop where
  | attach : Ran s .attach { s with ad := ({ s.ad with attached := true } : Adapter).releaseListener }
  | detach : Ran s .detach { s with ad := ({ s.ad with attached := false } : Adapter).releaseInternal }
  | connect (i : Nat) (o : ConnectOptions) :
      Ran s (.connect i o) { s.connectTask i o with ad := (s.connectTask i o).ad.releaseInternal }
  | disconnect (i : Nat) : Ran s (.disconnect i) { s.disconnectTask i with ad := (s.disconnectTask i).ad.releaseInternal }
  | submit (id : Nat) (s' : Sys) : Submitted s id s' → Ran s (.submit id) { s' with ad := s'.ad.releaseInternal }
  | destroy : Ran s .destroy { s with ad := s.ad.destroy }

theorem runTask_ran {s s' : Sys} {t : Task} (h : s.runTask t = .ok s') : s.ad.gone = false ∧ Ran s t s' := by
  unfold Sys.runTask at h
  split at h
  · cases h
  · rename_i hg
    refine ⟨by simpa using hg, ?_⟩
    cases t with
    | attach => cases h; exact .attach
    | detach => cases h; exact .detach
    | connect i o => cases h; exact .connect i o
    | disconnect i => cases h; exact .disconnect i
    | submit id =>
      dsimp only at h
      split at h
      · cases h
      · rename_i s' hs
        cases h
        exact .submit id s' (submitTask_submitted hs)
    | destroy => cases h; exact .destroy

/-! ## The ledgers of `connect()` and `disconnect()` -/

structure Ledger (a : Adapter) : Prop where
  quiet : Quiet a
  numbered : Numbered a
  dis : ∀ i, disBal i a = 0
  con : ∀ i, conBal i a ≤ 0

theorem countP_cons_task (p : Task → Bool) (t : Task) (ts : List Task) :
    (t :: ts).countP p = ts.countP p + if p t then 1 else 0 := List.countP_cons ..

/-- A ledger after a task was taken from the queue. -/
theorem disBal_pop {a : Adapter} {t : Task} {ts : List Task} (i : Nat) (h : a.tasks = t :: ts) :
    disBal i a = disBal i { a with tasks := ts } + if t.disconnects i then 1 else 0 := by
  simp only [disBal, tally, h, countP_cons_task]
  split <;> simp <;> omega

theorem conBal_pop {a : Adapter} {t : Task} {ts : List Task} (i : Nat) (h : a.tasks = t :: ts) :
    conBal i a = conBal i { a with tasks := ts } + if t.connects i then 1 else 0 := by
  simp only [conBal, tally, h, countP_cons_task]
  split <;> simp <;> omega

theorem halt_same (a : Adapter) : Same a a.halt := by
  unfold Adapter.halt
  split
  · have h := completeConnect_same a .connectionShutdown
    exact ⟨h.subs, h.nextId, h.external, h.internal, h.listener, h.attached, h.gone, h.tasks, h.calls⟩
  · exact ⟨rfl, rfl, rfl, rfl, rfl, rfl, rfl, rfl, rfl⟩

theorem disBal_halt (i : Nat) (a : Adapter) : disBal i a.halt = disBal i a := by
  unfold Adapter.halt
  rw [disBal_state]
  split
  · exact disBal_completeConnect ..
  · rfl

theorem conBal_halt (i : Nat) (a : Adapter) : conBal i a.halt = conBal i a := by
  unfold Adapter.halt
  rw [conBal_state]
  split
  · exact conBal_completeConnect ..
  · rfl

theorem halt_onDisconnect (a : Adapter) : a.halt.onDisconnect = a.onDisconnect := by
  unfold Adapter.halt
  split
  · exact completeConnect_onDisconnect ..
  · rfl

theorem halt_calls (a : Adapter) : SameCalls a a.halt := by
  unfold Adapter.halt
  split
  · exact completeConnect_calls a _
  · exact .refl _

theorem disBal_destroy (i : Nat) (a : Adapter) : disBal i a.destroy = disBal i a := by
  unfold Adapter.destroy
  rw [disBal_note i _ _ rfl rfl]
  unfold Adapter.failAll disBal tally
  dsimp only
  simp only [List.countP_append]
  have h1 : ∀ l : List (Nat × AOp), (l.map fun p => Note.finished p.2.call p.1 (failResult p.2.kind)).countP
      (Note.answersDisconnect i) = 0 := fun l => by induction l <;> simp_all [Note.answersDisconnect]
  have h2 : ∀ l : List (Nat × AOp), (l.map fun p => Note.finished p.2.call p.1 (failResult p.2.kind)).countP
      (Note.asksDisconnect i) = 0 := fun l => by induction l <;> simp_all [Note.asksDisconnect]
  rw [h1, h2]
  simp

theorem conBal_destroy (i : Nat) (a : Adapter) : conBal i a.destroy = conBal i a := by
  unfold Adapter.destroy
  rw [conBal_note i _ _ rfl rfl]
  unfold Adapter.failAll conBal tally
  dsimp only
  simp only [List.countP_append]
  have h1 : ∀ l : List (Nat × AOp), (l.map fun p => Note.finished p.2.call p.1 (failResult p.2.kind)).countP
      (Note.answersConnect i) = 0 := fun l => by induction l <;> simp_all [Note.answersConnect]
  have h2 : ∀ l : List (Nat × AOp), (l.map fun p => Note.finished p.2.call p.1 (failResult p.2.kind)).countP
      (Note.asksConnect i) = 0 := fun l => by induction l <;> simp_all [Note.asksConnect]
  rw [h1, h2]
  simp

theorem destroy_calls (a : Adapter) : SameCalls a a.destroy := by
  intro i
  unfold Adapter.destroy
  rw [tally_note]
  unfold Adapter.failAll tally
  dsimp only
  rw [List.countP_append]
  have h1 : ∀ l : List (Nat × AOp), (l.map fun p => Note.finished p.2.call p.1 (failResult p.2.kind)).countP
      (Note.calls i) = 0 := fun l => by induction l <;> simp_all [Note.calls]
  rw [h1]
  rfl

theorem disBal_store (i j : Nat) (a : Adapter) (h : a.onDisconnect = none) :
    disBal i { a with onDisconnect := some j } = disBal i a + if j = i then 1 else 0 := by
  simp only [disBal, tally, stored, h, Option.some.injEq]
  split <;> simp <;> omega

theorem conBal_store (i j : Nat) (a : Adapter) :
    conBal i { a with onComplete := some j } = conBal i a - stored a.onComplete i + if j = i then 1 else 0 := by
  simp only [conBal, tally, stored, Option.some.injEq]
  split <;> simp <;> omega

theorem disBal_answer (i j : Nat) (a : Adapter) :
    disBal i (a.note (.disconnectDone j)) = disBal i a + if j = i then 1 else 0 := by
  simp only [disBal, note_log, tally, List.countP_append, countP_one, Note.answersDisconnect, Note.asksDisconnect,
    note_tasks, note_onDisconnect, beq_iff_eq]
  split <;> simp <;> omega

theorem conBal_answer (i j : Nat) (c : Code) (a : Adapter) :
    conBal i (a.note (.connectDone j c)) = conBal i a + if j = i then 1 else 0 := by
  simp only [conBal, note_log, tally, List.countP_append, countP_one, Note.answersConnect, Note.asksConnect,
    note_tasks, note_onComplete, beq_iff_eq]
  split <;> simp <;> omega

/-- What a task does to the ledger of `disconnect()`. -/
theorem disBal_ran {s s' : Sys} {t : Task} (hq : Quiet s.ad) (h : Ran s t s') (i : Nat) :
    disBal i s'.ad = disBal i s.ad + if t.disconnects i then 1 else 0 := by
  have hri : ∀ a : Adapter, disBal i a.releaseInternal = disBal i a := fun a =>
    disBal_counts i (releaseInternal_counts a) (releaseInternal_tasks a)
  have hrl : ∀ a : Adapter, disBal i a.releaseListener = disBal i a := fun a =>
    disBal_counts i (releaseListener_counts a) (releaseListener_tasks a)
  cases h with
  | attach => exact (hrl _).trans (by simp [Task.disconnects]; rfl)
  | detach => exact (hri _).trans (by simp [Task.disconnects]; rfl)
  | connect j o =>
    dsimp only
    rw [hri]
    by_cases hs : s.ad.state = .stayDisconnected
    · rw [connectTask_start hs]
      dsimp only
      have h1 : ∀ (a : Adapter) x, disBal i { a with onComplete := x } = disBal i a := fun _ _ => rfl
      rw [h1, disBal_note i _ _ rfl rfl, disBal_state, disBal_completeDisconnect]
      simp [Task.disconnects]
    · rw [connectTask_refuse hs, disBal_note i _ _ rfl rfl]
      simp [Task.disconnects]
  | disconnect j =>
    dsimp only
    rw [hri]
    simp only [Task.disconnects, beq_iff_eq]
    by_cases hs : s.ad.state = .stayDisconnected
    · rw [disconnectTask_idle hs, disBal_answer]
    · by_cases hd : s.client.ctl.desired = .stopped
      · rw [disconnectTask_stopped hs hd]
        dsimp only
        rw [disBal_note i _ _ rfl rfl, disBal_answer, disBal_halt]
      · rw [disconnectTask_stop hs hd]
        dsimp only
        rw [disBal_store _ _ _ (by rw [halt_onDisconnect]; exact hq hs), disBal_halt]
  | submit id s1 hsub =>
    dsimp only
    rw [hri, submitted_const (disBal i) hsub (disBal_onEvent i) (disBal_overlook i) (disBal_onEffect i)
      (disBal_finish i) (disBal_table i) fun _ _ => rfl]
    simp [Task.disconnects]
  | destroy => exact (disBal_destroy i _).trans (by simp [Task.disconnects])

/-- What a task does to the ledger of `connect()`: it may forget one. -/
theorem conBal_ran {s s' : Sys} {t : Task} (h : Ran s t s') (i : Nat) :
    conBal i s'.ad = conBal i s.ad + (if t.connects i then 1 else 0) -
      (if s.ad.state = .stayDisconnected ∧ t.isConnect = true then stored s.ad.onComplete i else 0) := by
  have hri : ∀ a : Adapter, conBal i a.releaseInternal = conBal i a := fun a =>
    conBal_counts i (releaseInternal_counts a) (releaseInternal_tasks a)
  have hrl : ∀ a : Adapter, conBal i a.releaseListener = conBal i a := fun a =>
    conBal_counts i (releaseListener_counts a) (releaseListener_tasks a)
  cases h with
  | attach => exact (hrl _).trans (by simp [Task.connects, Task.isConnect]; rfl)
  | detach => exact (hri _).trans (by simp [Task.connects, Task.isConnect]; rfl)
  | connect j o =>
    dsimp only
    rw [hri]
    simp only [Task.connects, beq_iff_eq]
    by_cases hs : s.ad.state = .stayDisconnected
    · rw [connectTask_start hs]
      dsimp only
      rw [conBal_store, conBal_note i _ _ rfl rfl, conBal_state, conBal_completeDisconnect, note_onComplete]
      dsimp only
      have hc : s.ad.state = .stayDisconnected ∧ (Task.connect j o).isConnect = true := ⟨hs, rfl⟩
      rw [completeDisconnect_onComplete, if_pos hc]
      omega
    · rw [connectTask_refuse hs, conBal_answer]
      simp [hs]
  | disconnect j =>
    dsimp only
    rw [hri]
    have h1 : ∀ (a : Adapter) x, conBal i { a with onDisconnect := x } = conBal i a := fun _ _ => rfl
    by_cases hs : s.ad.state = .stayDisconnected
    · rw [disconnectTask_idle hs, conBal_note i _ _ rfl rfl]
      simp [Task.connects, Task.isConnect]
    · by_cases hd : s.client.ctl.desired = .stopped
      · rw [disconnectTask_stopped hs hd]
        dsimp only
        rw [conBal_note i _ _ rfl rfl, conBal_note i _ _ rfl rfl, conBal_halt]
        simp [Task.connects, Task.isConnect]
      · rw [disconnectTask_stop hs hd]
        dsimp only
        rw [h1, conBal_halt]
        simp [Task.connects, Task.isConnect]
  | submit id s1 hsub =>
    dsimp only
    rw [hri, submitted_const (conBal i) hsub (conBal_onEvent i) (conBal_overlook i) (conBal_onEffect i)
      (conBal_finish i) (conBal_table i) fun _ _ => rfl]
    simp [Task.connects, Task.isConnect]
  | destroy => exact (conBal_destroy i _).trans (by simp [Task.connects, Task.isConnect])

theorem SameCalls.counts {a a' : Adapter} (h : Counts a a') : SameCalls a a' := fun i => by
  unfold tally
  rw [h.log]

theorem calls_ran {s s' : Sys} {t : Task} (h : Ran s t s') : SameCalls s.ad s'.ad ∧ s'.ad.calls = s.ad.calls := by
  cases h with
  | attach => exact ⟨fun i => congrArg (List.countP (Note.calls i)) (releaseListener_counts _).log, (releaseListener_counts _).calls⟩
  | detach => exact ⟨fun i => congrArg (List.countP (Note.calls i)) (releaseInternal_counts _).log, (releaseInternal_counts _).calls⟩
  | connect j o =>
    have hk := releaseInternal_counts (s.connectTask j o).ad
    suffices h : SameCalls s.ad (s.connectTask j o).ad ∧ (s.connectTask j o).ad.calls = s.ad.calls from
      ⟨h.1.trans (.counts hk), hk.calls.trans h.2⟩
    by_cases hs : s.ad.state = .stayDisconnected
    · rw [connectTask_start hs]
      exact ⟨(completeDisconnect_calls s.ad).trans (note_calls' ({ s.ad.completeDisconnect with state := .firstConnect } :
        Adapter) (n := .connecting j) rfl), (completeDisconnect_same s.ad).calls⟩
    · rw [connectTask_refuse hs]
      exact ⟨note_calls' s.ad rfl, rfl⟩
  | disconnect j =>
    have hk := releaseInternal_counts (s.disconnectTask j).ad
    suffices h : SameCalls s.ad (s.disconnectTask j).ad ∧ (s.disconnectTask j).ad.calls = s.ad.calls from
      ⟨h.1.trans (.counts hk), hk.calls.trans h.2⟩
    by_cases hs : s.ad.state = .stayDisconnected
    · rw [disconnectTask_idle hs]
      exact ⟨note_calls' s.ad rfl, rfl⟩
    · by_cases hd : s.client.ctl.desired = .stopped
      · rw [disconnectTask_stopped hs hd]
        exact ⟨(halt_calls s.ad).trans ((note_calls' s.ad.halt (n := .disconnectDone j) rfl).trans
          (note_calls' _ (n := .closed) rfl)), (halt_same s.ad).calls⟩
      · rw [disconnectTask_stop hs hd]
        exact ⟨halt_calls s.ad, (halt_same s.ad).calls⟩
  | submit id s1 hsub =>
    have hk := releaseInternal_counts s1.ad
    suffices h : SameCalls s.ad s1.ad ∧ s1.ad.calls = s.ad.calls from ⟨h.1.trans (.counts hk), hk.calls.trans h.2⟩
    cases hsub with
    | ended op r _ => exact ⟨finish_calls s.ad id op r, rfl⟩
    | sent op op' set p _ _ _ _ =>
      unfold Sys.submitOp
      exact ⟨react_calls _ _, (react_same _ _).calls⟩
  | destroy => exact ⟨destroy_calls s.ad, rfl⟩

theorem quiet_ran {s s' : Sys} {t : Task} (hq : Quiet s.ad) (h : Ran s t s') : Quiet s'.ad := by
  have key : ∀ {a a' : Adapter}, Counts a a' → Quiet a → Quiet a' := by
    intro a a' h hq hs
    rw [h.onDisconnect]
    exact hq (h.state ▸ hs)
  cases h with
  | attach => exact key (releaseListener_counts _) hq
  | detach => exact key (releaseInternal_counts _) hq
  | connect j o =>
    refine key (releaseInternal_counts _) ?_
    by_cases hs : s.ad.state = .stayDisconnected
    · rw [connectTask_start hs]
      intro _
      exact completeDisconnect_onDisconnect s.ad
    · rw [connectTask_refuse hs]
      exact hq
  | disconnect j =>
    refine key (releaseInternal_counts _) ?_
    by_cases hs : s.ad.state = .stayDisconnected
    · rw [disconnectTask_idle hs]
      exact hq
    · by_cases hd : s.client.ctl.desired = .stopped
      · rw [disconnectTask_stopped hs hd]
        intro h; exact absurd rfl h
      · rw [disconnectTask_stop hs hd]
        intro h; exact absurd rfl h
  | submit id s1 hsub =>
    refine key (releaseInternal_counts _) ?_
    cases hsub with
    | ended op r _ => exact hq
    | sent op op' set p _ _ _ _ => exact react_quiet _ _ hq
  | destroy => exact hq

theorem Numbered.same {a a' : Adapter} (h : SameCalls a a') (hc : a'.calls = a.calls) (hn : Numbered a) : Numbered a' := by
  intro i
  rw [h i, hc]
  exact hn i

/-- A call is noted. -/
theorem Numbered.call {a a' : Adapter} {n : Note} (hc : a'.calls = a.calls + 1) (hl : a'.log = a.log ++ [n])
    (h : ∀ i, n.calls i = (a.calls == i)) (hn : Numbered a) : Numbered a' := by
  intro i
  have := hn i
  unfold tally at *
  rw [hl, hc, List.countP_append, countP_one, h]
  by_cases hi : a.calls = i
  · simp [hi] at *
    exact this
  · simp only [beq_iff_eq, hi, if_false]
    split at this <;> split <;> omega

theorem disBal_add (i : Nat) (a : Adapter) (k : Kind) : disBal i (a.add k) = disBal i a := by
  unfold Adapter.add
  split
  · rfl
  · simp [disBal, tally, Note.answersDisconnect, Note.asksDisconnect, Task.disconnects]

theorem conBal_add (i : Nat) (a : Adapter) (k : Kind) : conBal i (a.add k) = conBal i a := by
  unfold Adapter.add
  split
  · rfl
  · simp [conBal, tally, Note.answersConnect, Note.asksConnect, Task.connects]

/-- A `connect()` can be forgotten, but not come back. -/
theorem conBal_did {s s' : Sys} {e : Event} (h : Did s e s') (i : Nat) : conBal i s'.ad ≤ conBal i s.ad := by
  cases h with
  | refused => exact Int.le_refl _
  | connect o _ _ =>
    refine Int.le_of_eq ?_
    simp only [conBal, tally, schedule_log, schedule_tasks, note_log, note_tasks, schedule_onComplete,
      note_onComplete, List.countP_append, countP_one, Note.answersConnect, Note.asksConnect, Task.connects, beq_iff_eq]
    by_cases hi : s.ad.calls = i <;> simp [hi] <;> omega
  | disconnect =>
    refine Int.le_of_eq ?_
    unfold Adapter.disconnect
    simp [conBal, tally, Note.answersConnect, Note.asksConnect, Task.connects]
  | add _ k _ _ => exact Int.le_of_eq (conBal_add i s.ad k)
  | acquire => exact Int.le_refl _
  | release => exact Int.le_of_eq (conBal_counts i (release_counts s.ad) (release_tasks _))
  | run t ts _ ht hrun =>
    obtain ⟨_, hran⟩ := runTask_ran hrun
    rw [conBal_pop i ht]
    exact Int.le_trans (Int.le_of_eq (conBal_ran hran i)) (Int.sub_le_self _ (Int.natCast_nonneg _))
  | client e c _ _ => exact Int.le_of_eq (conBal_react i s c)

theorem Ledger.did {s s' : Sys} {e : Event} (hl : Ledger s.ad) (h : Did s e s') : Ledger s'.ad := by
  have hcon : ∀ i, conBal i s'.ad ≤ 0 := fun i => Int.le_trans (conBal_did h i) (hl.con i)
  cases h with
  | refused => exact hl
  | connect o _ _ =>
    refine ⟨hl.quiet, hl.numbered.call (n := .connectCalled s.ad.calls) rfl rfl (fun _ => rfl), fun i => ?_, hcon⟩
    rw [← hl.dis i]
    simp [disBal, tally, Note.answersDisconnect, Note.asksDisconnect, Task.disconnects]
  | disconnect =>
    refine ⟨hl.quiet, hl.numbered.call (n := .disconnectCalled s.ad.calls) rfl rfl (fun _ => rfl), fun i => ?_, hcon⟩
    rw [← hl.dis i]
    unfold Adapter.disconnect
    simp only [disBal, tally, schedule_log, schedule_tasks, note_log, note_tasks, schedule_onDisconnect,
      note_onDisconnect, List.countP_append, countP_one, Note.answersDisconnect, Note.asksDisconnect,
      Task.disconnects, beq_iff_eq]
    by_cases hi : s.ad.calls = i <;> simp [hi] <;> omega
  | add _ k _ _ =>
    refine ⟨?_, ?_, fun i => by rw [disBal_add]; exact hl.dis i, hcon⟩
    · unfold Adapter.add
      split <;> exact hl.quiet
    · unfold Adapter.add
      split
      · intro i
        have := hl.numbered i
        refine Nat.le_trans this ?_
        dsimp only
        split <;> split <;> omega
      · exact hl.numbered.call (n := .accepted s.ad.calls _ _) rfl rfl (fun _ => rfl)
  | acquire => exact ⟨hl.quiet, hl.numbered, hl.dis, hl.con⟩
  | release =>
    have hc := release_counts s.ad
    refine ⟨fun h => ?_, hl.numbered.same (.counts hc) hc.calls, fun i => ?_, hcon⟩
    · dsimp only at *
      rw [hc.onDisconnect]
      exact hl.quiet (hc.state ▸ h)
    · exact (disBal_counts i hc (release_tasks _)).trans (hl.dis i)
  | run t ts _ ht hrun =>
    obtain ⟨_, hran⟩ := runTask_ran hrun
    have hc := calls_ran hran
    refine ⟨quiet_ran (s := { s with ad := { s.ad with tasks := ts } }) hl.quiet hran,
      hl.numbered.same hc.1 hc.2, fun i => ?_, hcon⟩
    have := hl.dis i
    rw [disBal_pop i ht] at this
    exact (disBal_ran (s := { s with ad := { s.ad with tasks := ts } }) hl.quiet hran i).trans this
  | client e c _ _ =>
    exact ⟨react_quiet _ _ hl.quiet, hl.numbered.same (react_calls _ _) (react_same _ _).calls,
      fun i => by rw [disBal_react]; exact hl.dis i, hcon⟩

theorem reachable_ledger {allow : Sys → Event → Prop} {s : Sys} (h : ReachableIf allow s) : Ledger s.ad := by
  refine reachable_induct (P := fun s => Ledger s.ad) (fun cfg c _ _ => ?_) (fun _ _ _ hl _ _ hd => hl.did hd) h
  exact ⟨fun _ => rfl, fun i => Nat.zero_le _, fun i => rfl, fun i => Int.le_refl 0⟩

end Mqtt.Adapter
