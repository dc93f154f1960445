import Verif.Spec.Adapter

/-!
Parts of the adapter and what its functions do to them.
-/
namespace Mqtt.Adapter

open Mqtt.V5 Mqtt.SubscriptionSet
open Mqtt.Client5 (Config Client LEvent Effect Fault Desired)

section
variable (a : Adapter) (n : Note) (t : Task)
@[simp] theorem note_state : (a.note n).state = a.state := rfl
@[simp] theorem note_onComplete : (a.note n).onComplete = a.onComplete := rfl
@[simp] theorem note_onDisconnect : (a.note n).onDisconnect = a.onDisconnect := rfl
@[simp] theorem note_subs : (a.note n).subs = a.subs := rfl
@[simp] theorem note_nextId : (a.note n).nextId = a.nextId := rfl
@[simp] theorem note_table : (a.note n).table = a.table := rfl
@[simp] theorem note_external : (a.note n).external = a.external := rfl
@[simp] theorem note_internal : (a.note n).internal = a.internal := rfl
@[simp] theorem note_listener : (a.note n).listener = a.listener := rfl
@[simp] theorem note_attached : (a.note n).attached = a.attached := rfl
@[simp] theorem note_gone : (a.note n).gone = a.gone := rfl
@[simp] theorem note_tasks : (a.note n).tasks = a.tasks := rfl
@[simp] theorem note_calls : (a.note n).calls = a.calls := rfl
@[simp] theorem note_log : (a.note n).log = a.log ++ [n] := rfl

@[simp] theorem schedule_state : (a.schedule t).state = a.state := rfl
@[simp] theorem schedule_onComplete : (a.schedule t).onComplete = a.onComplete := rfl
@[simp] theorem schedule_onDisconnect : (a.schedule t).onDisconnect = a.onDisconnect := rfl
@[simp] theorem schedule_subs : (a.schedule t).subs = a.subs := rfl
@[simp] theorem schedule_nextId : (a.schedule t).nextId = a.nextId := rfl
@[simp] theorem schedule_table : (a.schedule t).table = a.table := rfl
@[simp] theorem schedule_external : (a.schedule t).external = a.external := rfl
@[simp] theorem schedule_internal : (a.schedule t).internal = a.internal := rfl
@[simp] theorem schedule_listener : (a.schedule t).listener = a.listener := rfl
@[simp] theorem schedule_attached : (a.schedule t).attached = a.attached := rfl
@[simp] theorem schedule_gone : (a.schedule t).gone = a.gone := rfl
@[simp] theorem schedule_tasks : (a.schedule t).tasks = a.tasks ++ [t] := rfl
@[simp] theorem schedule_calls : (a.schedule t).calls = a.calls := rfl
@[simp] theorem schedule_log : (a.schedule t).log = a.log := rfl
end

/-- Everything but the task queue and the reference counts is the same. -/
structure Counts (a a' : Adapter) : Prop where
  state : a'.state = a.state
  onComplete : a'.onComplete = a.onComplete
  onDisconnect : a'.onDisconnect = a.onDisconnect
  subs : a'.subs = a.subs
  nextId : a'.nextId = a.nextId
  table : a'.table = a.table
  attached : a'.attached = a.attached
  gone : a'.gone = a.gone
  calls : a'.calls = a.calls
  log : a'.log = a.log

theorem Counts.refl (a : Adapter) : Counts a a := ⟨rfl, rfl, rfl, rfl, rfl, rfl, rfl, rfl, rfl, rfl⟩

theorem Counts.trans {a b c : Adapter} (h : Counts a b) (h' : Counts b c) : Counts a c :=
  ⟨h'.state.trans h.state, h'.onComplete.trans h.onComplete, h'.onDisconnect.trans h.onDisconnect,
    h'.subs.trans h.subs, h'.nextId.trans h.nextId, h'.table.trans h.table, h'.attached.trans h.attached,
    h'.gone.trans h.gone, h'.calls.trans h.calls, h'.log.trans h.log⟩

theorem releaseInternal_counts (a : Adapter) : Counts a a.releaseInternal := by
  unfold Adapter.releaseInternal
  dsimp only
  split <;> exact ⟨rfl, rfl, rfl, rfl, rfl, rfl, rfl, rfl, rfl, rfl⟩

theorem releaseListener_counts (a : Adapter) : Counts a a.releaseListener := by
  unfold Adapter.releaseListener
  dsimp only
  split <;> exact ⟨rfl, rfl, rfl, rfl, rfl, rfl, rfl, rfl, rfl, rfl⟩

theorem release_counts (a : Adapter) : Counts a a.release := by
  unfold Adapter.release
  dsimp only
  split
  · have h := releaseListener_counts ({ a with external := a.external - 1 } : Adapter)
    exact ⟨h.state, h.onComplete, h.onDisconnect, h.subs, h.nextId, h.table, h.attached, h.gone, h.calls, h.log⟩
  · exact ⟨rfl, rfl, rfl, rfl, rfl, rfl, rfl, rfl, rfl, rfl⟩

/-- Tasks that release an internal or a listener reference make no tasks but these. -/
def Task.final : Task → Bool
  | .detach => true
  | .destroy => true
  | _ => false

theorem releaseInternal_tasks (a : Adapter) :
    ∃ new, a.releaseInternal.tasks = a.tasks ++ new ∧ ∀ t ∈ new, t.final = true := by
  unfold Adapter.releaseInternal
  dsimp only
  split
  · exact ⟨[.destroy], rfl, by simp [Task.final]⟩
  · exact ⟨[], by simp, by simp⟩

theorem releaseListener_tasks (a : Adapter) :
    ∃ new, a.releaseListener.tasks = a.tasks ++ new ∧ ∀ t ∈ new, t.final = true := by
  unfold Adapter.releaseListener
  dsimp only
  split
  · exact ⟨[.detach], rfl, by simp [Task.final]⟩
  · exact ⟨[], by simp, by simp⟩

theorem release_tasks (a : Adapter) :
    ∃ new, a.release.tasks = a.tasks ++ new ∧ ∀ t ∈ new, t.final = true := by
  unfold Adapter.release
  dsimp only
  split
  · exact releaseListener_tasks ({ a with external := a.external - 1 } : Adapter)
  · exact ⟨[], by simp, by simp⟩

/-- What the callbacks of the client leave as it is. -/
structure Same (a a' : Adapter) : Prop where
  subs : a'.subs = a.subs
  nextId : a'.nextId = a.nextId
  external : a'.external = a.external
  internal : a'.internal = a.internal
  listener : a'.listener = a.listener
  attached : a'.attached = a.attached
  gone : a'.gone = a.gone
  tasks : a'.tasks = a.tasks
  calls : a'.calls = a.calls

theorem Same.refl (a : Adapter) : Same a a := ⟨rfl, rfl, rfl, rfl, rfl, rfl, rfl, rfl, rfl⟩

theorem Same.trans {a b c : Adapter} (h : Same a b) (h' : Same b c) : Same a c :=
  ⟨h'.subs.trans h.subs, h'.nextId.trans h.nextId, h'.external.trans h.external, h'.internal.trans h.internal,
    h'.listener.trans h.listener, h'.attached.trans h.attached, h'.gone.trans h.gone, h'.tasks.trans h.tasks,
    h'.calls.trans h.calls⟩

theorem completeConnect_same (a : Adapter) (c : Code) : Same a (a.completeConnect c) := by
  unfold Adapter.completeConnect
  split <;> exact ⟨rfl, rfl, rfl, rfl, rfl, rfl, rfl, rfl, rfl⟩

theorem completeDisconnect_same (a : Adapter) : Same a a.completeDisconnect := by
  unfold Adapter.completeDisconnect
  split <;> exact ⟨rfl, rfl, rfl, rfl, rfl, rfl, rfl, rfl, rfl⟩

theorem onEvent_same (a : Adapter) (e : LEvent) : Same a (a.onEvent e) := by
  unfold Adapter.onEvent
  cases e with
  | attempting => exact ⟨rfl, rfl, rfl, rfl, rfl, rfl, rfl, rfl, rfl⟩
  | success =>
    dsimp only
    split
    · exact .refl _
    · have h := completeConnect_same (a.note .connectionSuccess) .ok
      exact ⟨h.subs, h.nextId, h.external, h.internal, h.listener, h.attached, h.gone, h.tasks, h.calls⟩
    · exact ⟨rfl, rfl, rfl, rfl, rfl, rfl, rfl, rfl, rfl⟩
  | failure e =>
    dsimp only
    split
    · exact .refl _
    · split
      · exact .refl _
      · have h := completeConnect_same (a.note (.connectionFailure (translate e))) (translate e)
        exact ⟨h.subs, h.nextId, h.external, h.internal, h.listener, h.attached, h.gone, h.tasks, h.calls⟩
      · exact ⟨rfl, rfl, rfl, rfl, rfl, rfl, rfl, rfl, rfl⟩
  | disconnection e =>
    dsimp only
    split <;> exact ⟨rfl, rfl, rfl, rfl, rfl, rfl, rfl, rfl, rfl⟩
  | stopped =>
    have h := completeDisconnect_same a
    exact ⟨h.subs, h.nextId, h.external, h.internal, h.listener, h.attached, h.gone, h.tasks, h.calls⟩

theorem overlook_same (a : Adapter) (e : LEvent) : Same a (a.overlook e) := by
  unfold Adapter.overlook
  split <;> exact ⟨rfl, rfl, rfl, rfl, rfl, rfl, rfl, rfl, rfl⟩

theorem onEffect_same (a : Adapter) (e : Effect) : Same a (a.onEffect e) := by
  unfold Adapter.onEffect
  split
  · unfold Adapter.onCompleted
    split <;> exact ⟨rfl, rfl, rfl, rfl, rfl, rfl, rfl, rfl, rfl⟩
  · split <;> exact ⟨rfl, rfl, rfl, rfl, rfl, rfl, rfl, rfl, rfl⟩
  · exact .refl _

/-- Induction over what the adapter is told. -/
theorem react_induct {P : Adapter → Prop} (s : Sys) (c : Client)
    (h1 : ∀ a e, P a → P (a.onEvent e)) (h2 : ∀ a e, P a → P (a.overlook e)) (h3 : ∀ a e, P a → P (a.onEffect e))
    (h : P s.ad) : P (s.react c).ad := by
  have key : ∀ {α : Type} (f : Adapter → α → Adapter) (l : List α) (a : Adapter), (∀ a x, P a → P (f a x)) → P a →
      P (l.foldl f a) := by
    intro α f l
    induction l with
    | nil => intro a _ h; exact h
    | cons x l ih => intro a hf h; exact ih _ hf (hf _ _ h)
  unfold Sys.react
  dsimp only
  refine key _ _ _ h3 (key _ _ _ ?_ h)
  split
  · exact h1
  · exact h2

theorem react_same (s : Sys) (c : Client) : Same s.ad (s.react c).ad :=
  react_induct (P := fun a => Same s.ad a) s c (fun _ e h => h.trans (onEvent_same _ e))
    (fun _ e h => h.trans (overlook_same _ e)) (fun _ e h => h.trans (onEffect_same _ e)) (.refl _)

@[simp] theorem react_client (s : Sys) (c : Client) : (s.react c).client = c := rfl
@[simp] theorem react_cfg (s : Sys) (c : Client) : (s.react c).cfg = s.cfg := rfl

/-- A number that the callbacks of the client leave as it is. -/
theorem react_const {α : Type} (f : Adapter → α) (s : Sys) (c : Client)
    (h1 : ∀ a e, f (a.onEvent e) = f a) (h2 : ∀ a e, f (a.overlook e) = f a) (h3 : ∀ a e, f (a.onEffect e) = f a) :
    f (s.react c).ad = f s.ad :=
  react_induct (P := fun a => f a = f s.ad) s c (fun a e h => (h1 a e).trans h) (fun a e h => (h2 a e).trans h)
    (fun a e h => (h3 a e).trans h) rfl

/-! ## The steps of the system -/

/-- The packet of an operation has passed the validation of its options. -/
def KindOk : Kind → Prop
  | .publish v => ∃ u, newPublish u = some v
  | .subscribe rs v _ => newSubscribe (subscribeView rs) = some v ∧ ∀ r ∈ rs, isValidTopicFilter r.filter = true
  | .resubscribe => True
  | .unsubscribe _ v => ∃ u, newUnsubscribe u = some v

/-- Calls that make an operation. -/
def Event.adds : Event → Bool
  | .publish .. => true
  | .subscribe .. => true
  | .resubscribe => true
  | .unsubscribe _ => true
  | _ => false

/-- What happens in one step, apart from what the client does. -/
inductive Did (s : Sys) : Event → Sys → Prop where
  | refused (e : Event) : Did s e s
  | connect (o : ConnectOptions) : o.valid = true → o.socketOptions.isSome = true →
      Did s (.connect o) { s with ad := (({ s.ad with internal := s.ad.internal + 1, calls := s.ad.calls + 1 } :
        Adapter).note (.connectCalled s.ad.calls)).schedule (.connect s.ad.calls o) }
  | disconnect : Did s .disconnect { s with ad := s.ad.disconnect }
  | add (e : Event) (k : Kind) : KindOk k → e.adds = true → Did s e { s with ad := s.ad.add k }
  | acquire : Did s .acquire { s with ad := s.ad.acquire }
  | release : Did s .release { s with ad := s.ad.release }
  | run (t : Task) (ts : List Task) (s' : Sys) : s.ad.tasks = t :: ts →
      ({ s with ad := { s.ad with tasks := ts } } : Sys).runTask t = .ok s' → Did s .run s'
  | client (e : Client5.Event) (c : Client) : Client5.step s.cfg s.client e = .ok c →
      ¬ (s.ad.attached = true ∧ s.ad.gone = true) → Did s (.client e) (s.react c)

theorem step_did {s s' : Sys} {e : Event} (h : step s e = .ok s') : Did s e s' := by
  have key : ∀ a : Adapter, s.with (.ok a) = .ok s' → s' = { s with ad := a } := by
    intro a h
    injection h with h
    exact h.symm
  cases e with
  | connect o =>
    change s.with (s.ad.connect o) = .ok s' at h
    unfold Adapter.connect at h
    split at h
    · rw [key _ h]; exact .refused _
    · rename_i hv
      split at h
      · cases h
      · rename_i hs
        rw [key _ h]
        refine .connect o (by simpa using hv) ?_
        cases hx : o.socketOptions with
        | none => rw [hx] at hs; exact absurd rfl hs
        | some x => rfl
  | disconnect => rw [key _ h]; exact .disconnect
  | publish t p q r =>
    change s.with (s.ad.publish t p q r) = .ok s' at h
    unfold Adapter.publish at h
    split at h
    · rw [key _ h]; exact .refused _
    · split at h
      · rw [key _ h]; exact .refused _
      · split at h
        · cases h
        · rename_i v hv
          rw [key _ h]; exact .add _ _ ⟨_, hv⟩ rfl
  | subscribe rs m =>
    have h' := key _ h
    rw [h']
    unfold Adapter.subscribe
    split
    · exact .refused _
    · split
      · exact .refused _
      · rename_i hv
        split
        · exact .refused _
        · rename_i v hn
          refine .add _ _ ⟨hn, fun r hr => ?_⟩ rfl
          cases hf : isValidTopicFilter r.filter with
          | true => rfl
          | false => exact absurd (List.any_eq_true.2 ⟨r, hr, by simp [hf]⟩) hv
  | resubscribe => rw [key _ h]; exact .add _ _ trivial rfl
  | unsubscribe f =>
    change s.with (s.ad.unsubscribe f) = .ok s' at h
    unfold Adapter.unsubscribe at h
    split at h
    · rw [key _ h]; exact .refused _
    · split at h
      · cases h
      · rename_i v hv
        rw [key _ h]; exact .add _ _ ⟨_, hv⟩ rfl
  | acquire => rw [key _ h]; exact .acquire
  | release => rw [key _ h]; exact .release
  | run =>
    unfold step at h
    dsimp only at h
    split at h
    · cases h; exact .refused _
    · rename_i t ts ht
      exact .run t ts s' ht h
  | client e =>
    unfold step at h
    dsimp only at h
    split at h
    · cases h
    · rename_i c hc
      split at h
      · cases h
      · rename_i hg
        cases h
        exact .client e c hc hg

/-- An invariant of all histories. -/
theorem reachable_induct {allow : Sys → Event → Prop} {P : Sys → Prop}
    (hn : ∀ cfg c, Client5.Reachable cfg c → c.ctl.desired ≠ .terminated → P { cfg := cfg, client := c })
    (hs : ∀ s s' e, P s → Enabled s e → allow s e → Did s e s' → P s') {s : Sys} (h : ReachableIf allow s) : P s := by
  induction h with
  | new h1 h2 => exact hn _ _ h1 h2
  | step _ he ha hst ih => exact hs _ _ _ ih he ha (step_did hst)

end Mqtt.Adapter
