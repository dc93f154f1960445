import Verif.Lemmas.AdapterTask

/-!
The lifetime of the adapter.
-/
namespace Mqtt.Adapter

open Mqtt.V5 Mqtt.SubscriptionSet
open Mqtt.Client5 (Config Client LEvent Effect Fault Desired)

/-- Tasks that hold a reference to the adapter. -/
def Task.isRef : Task → Bool
  | .connect _ _ => true
  | .disconnect _ => true
  | .submit _ => true
  | _ => false

/-- References, tasks and lifetime are the same. -/
structure SameRefs (a a' : Adapter) : Prop where
  external : a'.external = a.external
  internal : a'.internal = a.internal
  listener : a'.listener = a.listener
  attached : a'.attached = a.attached
  gone : a'.gone = a.gone
  tasks : a'.tasks = a.tasks

theorem Same.refs {a a' : Adapter} (h : Same a a') : SameRefs a a' :=
  ⟨h.external, h.internal, h.listener, h.attached, h.gone, h.tasks⟩

theorem ran_ref {s s' : Sys} {t : Task} (h : Ran s t s') (ht : t.isRef = true) :
    ∃ a, SameRefs s.ad a ∧ s'.ad = a.releaseInternal := by
  cases h with
  | attach => cases ht
  | detach => cases ht
  | destroy => cases ht
  | connect j o =>
    refine ⟨_, ?_, rfl⟩
    by_cases hs : s.ad.state = .stayDisconnected
    · rw [connectTask_start hs]
      have h := completeDisconnect_same s.ad
      exact ⟨h.external, h.internal, h.listener, h.attached, h.gone, h.tasks⟩
    · rw [connectTask_refuse hs]
      exact ⟨rfl, rfl, rfl, rfl, rfl, rfl⟩
  | disconnect j =>
    refine ⟨_, ?_, rfl⟩
    by_cases hs : s.ad.state = .stayDisconnected
    · rw [disconnectTask_idle hs]
      exact ⟨rfl, rfl, rfl, rfl, rfl, rfl⟩
    · have h := halt_same s.ad
      by_cases hd : s.client.ctl.desired = .stopped
      · rw [disconnectTask_stopped hs hd]
        exact ⟨h.external, h.internal, h.listener, h.attached, h.gone, h.tasks⟩
      · rw [disconnectTask_stop hs hd]
        exact ⟨h.external, h.internal, h.listener, h.attached, h.gone, h.tasks⟩
  | submit id s1 hsub =>
    refine ⟨_, ?_, rfl⟩
    cases hsub with
    | ended op r _ => exact ⟨rfl, rfl, rfl, rfl, rfl, rfl⟩
    | sent op op' set p _ _ _ _ =>
      unfold Sys.submitOp
      have h := react_same ({ s with ad := { { s.ad with subs := set } with
        table := s.ad.table.set id { op' with uid := some s.client.ops.nextUid } } } : Sys) (s.client.submit s.cfg p 0 false)
      exact ⟨h.external, h.internal, h.listener, h.attached, h.gone, h.tasks⟩

/-- The adapter has not been told of anything, and has not carried out anything. -/
structure Untouched (a : Adapter) : Prop where
  state : a.state = .stayDisconnected
  onComplete : a.onComplete = none
  onDisconnect : a.onDisconnect = none

/-- The stages of the adapter's life. -/
inductive Refs (a : Adapter) : Prop where
  | fresh (ts : List Task) : a.tasks = .attach :: ts → (∀ t ∈ ts, t.isRef = true) → a.attached = false →
      a.gone = false → a.listener = (if a.external > 0 then 2 else 1) → a.internal = 1 + ts.length → Untouched a → Refs a
  | live : (∀ t ∈ a.tasks, t.isRef = true) → a.attached = true → a.gone = false → a.external > 0 → a.listener = 1 →
      a.internal = 1 + a.tasks.length → Refs a
  | dying (ts : List Task) : a.tasks = ts ++ [.detach] → (∀ t ∈ ts, t.isRef = true) → a.attached = true →
      a.gone = false → a.external = 0 → a.listener = 0 → a.internal = 1 + ts.length → Refs a
  | dead : a.tasks = [.destroy] → a.attached = false → a.gone = false → a.external = 0 → a.listener = 0 →
      a.internal = 0 → Refs a
  | gone : a.tasks = [] → a.attached = false → a.gone = true → a.external = 0 → a.listener = 0 →
      a.internal = 0 → Refs a

/-- A new task that holds a reference. -/
theorem Refs.task {a a' : Adapter} {t : Task} (h : Refs a) (he : a.external > 0) (ht : t.isRef = true)
    (h1 : a'.tasks = a.tasks ++ [t]) (h2 : a'.external = a.external) (h3 : a'.internal = a.internal + 1)
    (h4 : a'.listener = a.listener) (h5 : a'.attached = a.attached) (h6 : a'.gone = a.gone)
    (h7 : Untouched a → Untouched a') : Refs a' := by
  cases h with
  | fresh ts e1 e2 e3 e4 e5 e6 e7 =>
    refine .fresh (ts ++ [t]) (by rw [h1, e1]; rfl) ?_ (h5.trans e3) (h6.trans e4) (by rw [h4, h2, e5]) ?_ (h7 e7)
    · intro x hx
      rcases List.mem_append.1 hx with h | h
      · exact e2 x h
      · rw [List.mem_singleton.1 h]; exact ht
    · rw [h3, e6, List.length_append]; simp; omega
  | live e1 e2 e3 e4 e5 e6 =>
    refine .live ?_ (h5.trans e2) (h6.trans e3) (by omega) (by omega) ?_
    · intro x hx
      rw [h1] at hx
      rcases List.mem_append.1 hx with h | h
      · exact e1 x h
      · rw [List.mem_singleton.1 h]; exact ht
    · rw [h3, e6, h1, List.length_append]; simp; omega
  | dying ts e1 e2 e3 e4 e5 => omega
  | dead e1 e2 e3 e4 => omega
  | gone e1 e2 e3 e4 => omega

theorem Refs.same {a a' : Adapter} (h : Refs a) (hs : SameRefs a a')
    (h7 : (∃ ts, a.tasks = .attach :: ts) → a.attached = false → Untouched a → Untouched a') : Refs a' := by
  cases h with
  | fresh ts e1 e2 e3 e4 e5 e6 e7 =>
    exact .fresh ts (hs.tasks.trans e1) e2 (hs.attached.trans e3) (hs.gone.trans e4)
      (by rw [hs.listener, hs.external, e5]) (hs.internal.trans e6) (h7 ⟨ts, e1⟩ e3 e7)
  | live e1 e2 e3 e4 e5 e6 =>
    exact .live (by rw [hs.tasks]; exact e1) (hs.attached.trans e2) (hs.gone.trans e3) (by rw [hs.external]; exact e4)
      (hs.listener.trans e5) (by rw [hs.internal, hs.tasks, e6])
  | dying ts e1 e2 e3 e4 e5 e6 e7 =>
    exact .dying ts (hs.tasks.trans e1) e2 (hs.attached.trans e3) (hs.gone.trans e4) (hs.external.trans e5)
      (hs.listener.trans e6) (hs.internal.trans e7)
  | dead e1 e2 e3 e4 e5 e6 =>
    exact .dead (hs.tasks.trans e1) (hs.attached.trans e2) (hs.gone.trans e3) (hs.external.trans e4)
      (hs.listener.trans e5) (hs.internal.trans e6)
  | gone e1 e2 e3 e4 e5 e6 =>
    exact .gone (hs.tasks.trans e1) (hs.attached.trans e2) (hs.gone.trans e3) (hs.external.trans e4)
      (hs.listener.trans e5) (hs.internal.trans e6)

/-- Callbacks of a client that the adapter does not listen to. -/
theorem react_untouched {s : Sys} {c : Client} (ha : s.ad.attached = false) (h : Untouched s.ad) :
    Untouched (s.react c).ad := by
  have hk := react_kept s c
  refine ⟨?_, ?_, ?_⟩
  · have key : ∀ {α : Type} (f : Adapter → α → Adapter) (l : List α) (a : Adapter), (∀ a x, (f a x).state = a.state) →
        (l.foldl f a).state = a.state := by
      intro α f l
      induction l with
      | nil => intro a _; rfl
      | cons x l ih => intro a hf; exact (ih _ hf).trans (hf _ _)
    unfold Sys.react
    rw [ha]
    dsimp only
    rw [key, key, h.state]
    · intro a e
      show (a.overlook e).state = a.state
      rcases overlook_note a e with h | h <;> rw [h]
      rfl
    · intro a e
      have hx := onEffect_effected a e
      generalize a.onEffect e = a' at hx ⊢
      cases hx <;> rfl
  · rcases hk.complete with h1 | h1
    · exact h1.trans h.onComplete
    · exact h1
  · rcases hk.disconnect with h1 | h1
    · exact h1.trans h.onDisconnect
    · exact h1

theorem releaseInternal_more {a : Adapter} (h : a.internal ≥ 2) :
    a.releaseInternal = { a with internal := a.internal - 1 } := by
  unfold Adapter.releaseInternal
  dsimp only
  rw [if_neg (by omega)]

theorem releaseInternal_last {a : Adapter} (h : a.internal = 1) :
    a.releaseInternal = ({ a with internal := 0 } : Adapter).schedule .destroy := by
  unfold Adapter.releaseInternal
  simp [h]

theorem Refs.did {s s' : Sys} {e : Event} (hl : Refs s.ad) (he : Enabled s e) (h : Did s e s') : Refs s'.ad := by
  cases h with
  | refused => exact hl
  | connect o _ _ => exact hl.task (t := .connect s.ad.calls o) he rfl rfl rfl rfl rfl rfl rfl fun h => ⟨h.1, h.2, h.3⟩
  | disconnect => exact hl.task (t := .disconnect s.ad.calls) he rfl rfl rfl rfl rfl rfl rfl fun h => ⟨h.1, h.2, h.3⟩
  | add _ k _ ha =>
    have hx : s.ad.external > 0 := by
      cases e with
      | publish => exact he
      | subscribe => exact he.1
      | resubscribe => exact he
      | unsubscribe => exact he
      | _ => cases ha
    unfold Adapter.add
    split
    · exact hl.same ⟨rfl, rfl, rfl, rfl, rfl, rfl⟩ fun _ _ h => ⟨h.1, h.2, h.3⟩
    · rename_i id _
      exact hl.task (t := .submit id) hx rfl rfl rfl rfl rfl rfl rfl fun h => ⟨h.1, h.2, h.3⟩
  | acquire =>
    have he : s.ad.external > 0 := he
    cases hl with
    | fresh ts e1 e2 e3 e4 e5 e6 e7 =>
      refine .fresh ts e1 e2 e3 e4 ?_ e6 ⟨e7.1, e7.2, e7.3⟩
      rw [if_pos he] at e5
      exact e5.trans (if_pos (Nat.succ_pos _)).symm
    | live e1 e2 e3 e4 e5 e6 => exact .live e1 e2 e3 (Nat.succ_pos _) e5 e6
    | dying ts e1 e2 e3 e4 e5 => omega
    | dead e1 e2 e3 e4 => omega
    | gone e1 e2 e3 e4 => omega
  | release =>
    have he : s.ad.external > 0 := he
    unfold Adapter.release
    dsimp only
    by_cases hx : s.ad.external - 1 = 0
    · rw [if_pos hx]
      unfold Adapter.releaseListener
      dsimp only
      cases hl with
      | fresh ts e1 e2 e3 e4 e5 e6 e7 =>
        rw [if_pos he] at e5
        rw [if_neg (by omega)]
        refine .fresh ts e1 e2 e3 e4 ?_ e6 ⟨e7.1, e7.2, e7.3⟩
        dsimp only
        rw [if_neg (by omega), e5]
      | live e1 e2 e3 e4 e5 e6 =>
        rw [if_pos (by omega)]
        refine .dying s.ad.tasks rfl e1 e2 e3 hx ?_ e6
        show s.ad.listener - 1 = 0
        omega
      | dying ts e1 e2 e3 e4 e5 => omega
      | dead e1 e2 e3 e4 => omega
      | gone e1 e2 e3 e4 => omega
    · rw [if_neg hx]
      cases hl with
      | fresh ts e1 e2 e3 e4 e5 e6 e7 =>
        refine .fresh ts e1 e2 e3 e4 ?_ e6 ⟨e7.1, e7.2, e7.3⟩
        rw [if_pos he] at e5
        dsimp only
        rw [if_pos (by omega), e5]
      | live e1 e2 e3 e4 e5 e6 => exact .live e1 e2 e3 (Nat.pos_of_ne_zero hx) e5 e6
      | dying ts e1 e2 e3 e4 e5 => omega
      | dead e1 e2 e3 e4 => omega
      | gone e1 e2 e3 e4 => omega
  | run t ts _ ht hrun =>
    obtain ⟨hg, hran⟩ := runTask_ran hrun
    cases hl with
    | fresh ts' e1 e2 e3 e4 e5 e6 e7 =>
      rw [e1] at ht
      injection ht with h1 h2
      subst h1 h2
      cases hran with
      | attach =>
      unfold Adapter.releaseListener
      dsimp only
      by_cases hx : s.ad.external > 0
      · rw [if_pos hx] at e5
        rw [if_neg (by omega)]
        exact .live e2 rfl e4 hx (by show s.ad.listener - 1 = 1; omega) e6
      · rw [if_neg hx] at e5
        rw [if_pos (by omega)]
        exact .dying _ rfl e2 rfl e4 (by show s.ad.external = 0; omega) (by show s.ad.listener - 1 = 0; omega) e6
    | live e1 e2 e3 e4 e5 e6 =>
      obtain ⟨a, hs, ha⟩ := ran_ref hran (e1 t (by rw [ht]; exact List.mem_cons_self ..))
      have h2 : a.internal = s.ad.internal := hs.internal
      rw [ht, List.length_cons] at e6
      rw [ha, releaseInternal_more (by omega)]
      refine .live ?_ (hs.attached.trans e2) (hs.gone.trans e3) (by show a.external > 0; rw [hs.external]; exact e4)
        (hs.listener.trans e5) ?_
      · show ∀ t ∈ a.tasks, _
        rw [hs.tasks]
        exact fun x hx => e1 x (by rw [ht]; exact List.mem_cons_of_mem _ hx)
      · show a.internal - 1 = 1 + a.tasks.length
        rw [hs.tasks]
        show a.internal - 1 = 1 + ts.length
        omega
    | dying ts' e1 e2 e3 e4 e5 e6 e7 =>
      cases ts' with
      | nil =>
        rw [e1] at ht
        injection ht with h1 h2
        subst h1 h2
        cases hran with
        | detach =>
        rw [releaseInternal_last (by exact e7)]
        exact .dead rfl rfl e4 e5 e6 rfl
      | cons x l =>
        rw [e1] at ht
        injection ht with h1 h2
        subst h1 h2
        obtain ⟨a, hs, ha⟩ := ran_ref hran (e2 x (List.mem_cons_self ..))
        have h2 : a.internal = s.ad.internal := hs.internal
        rw [List.length_cons] at e7
        rw [ha, releaseInternal_more (by omega)]
        exact .dying l hs.tasks (fun x hx => e2 x (List.mem_cons_of_mem _ hx)) (hs.attached.trans e3)
          (hs.gone.trans e4) (hs.external.trans e5) (hs.listener.trans e6) (by show a.internal - 1 = _; omega)
    | dead e1 e2 e3 e4 e5 e6 =>
      rw [e1] at ht
      injection ht with h1 h2
      subst h1 h2
      cases hran with
      | destroy => exact .gone rfl e2 rfl e4 e5 e6
    | gone e1 e2 e3 e4 e5 e6 => rw [e1] at ht; cases ht
  | client e c _ _ => exact hl.same (react_same s c).refs fun _ ha hu => react_untouched ha hu

theorem reachable_refs {allow : Sys → Event → Prop} {s : Sys} (h : ReachableIf allow s) : Refs s.ad := by
  refine reachable_induct (P := fun s => Refs s.ad) (fun cfg c _ _ => ?_) (fun _ _ _ hl he _ hd => hl.did he hd) h
  exact .fresh [] rfl (by simp) rfl rfl rfl rfl ⟨rfl, rfl, rfl⟩

end Mqtt.Adapter
