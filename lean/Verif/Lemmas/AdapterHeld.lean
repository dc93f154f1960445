import Verif.Lemmas.AdapterDrive

/-!
Which attempt of the client a `connect()` is answered by, and when a `disconnect()` waits.
-/
namespace Mqtt.Adapter

open Mqtt.V5 Mqtt.SubscriptionSet
open Mqtt.Client5 (Config Client LEvent Effect Fault Desired Life Held Soft)

/-- Call `i` is answered with success after these notes rightly: the client has begun to connect since the call
was acted upon, and has now succeeded. -/
def Earned (l : List Note) (i : Nat) : Prop :=
  (∃ pre, l = pre ++ [.connectionFailure .ok]) ∨
    ∃ x y, l = x ++ .connecting i :: (y ++ [.connectionSuccess]) ∧ .attempting ∈ y

/-- Every answer with success was earned. -/
def AllEarned (l : List Note) : Prop := ∀ pre i post, l = pre ++ .connectDone i .ok :: post → Earned pre i

theorem AllEarned.snoc {l : List Note} {n : Note} (h : AllEarned l) (hn : ∀ i, n = .connectDone i .ok → Earned l i) :
    AllEarned (l ++ [n]) := by
  intro pre i post he
  rcases List.eq_nil_or_concat post with rfl | ⟨post', m, rfl⟩
  · have := List.append_inj' (t₁ := [n]) (t₂ := [Note.connectDone i .ok]) he rfl
    obtain ⟨h1, h2⟩ := this
    subst h1
    exact hn i (by injection h2)
  · rw [List.concat_eq_append, ← List.cons_append, ← List.append_assoc] at he
    have := List.append_inj' (t₁ := [n]) (t₂ := [m]) he rfl
    exact h pre i post' this.1

theorem AllEarned.append {l new : List Note} (h : AllEarned l) (hn : ∀ n ∈ new, ∀ i, n ≠ .connectDone i .ok) :
    AllEarned (l ++ new) := by
  induction new generalizing l with
  | nil => simpa using h
  | cons n new ih =>
    rw [show l ++ n :: new = (l ++ [n]) ++ new by simp]
    exact ih (h.snoc fun i hi => absurd hi (hn n (List.mem_cons_self ..) i)) fun m hm => hn m (List.mem_cons_of_mem _ hm)

/-- The log, and the `connect()` that waits; `b` when no attempt need have been begun for it. -/
structure Fresh (b : Bool) (a : Adapter) : Prop where
  past : AllEarned a.log
  now : ∀ i, a.onComplete = some i → ∃ x y, a.log = x ++ .connecting i :: y ∧ (.attempting ∈ y ∨ b = true)

theorem Fresh.of {b : Bool} {a a' : Adapter} (h : Fresh b a) {new : List Note} (h1 : a'.log = a.log ++ new)
    (h2 : ∀ n ∈ new, ∀ i, n ≠ .connectDone i .ok) (h3 : a'.onComplete = a.onComplete ∨ a'.onComplete = none) : Fresh b a' := by
  refine ⟨by rw [h1]; exact h.past.append h2, fun i hi => ?_⟩
  rcases h3 with h3 | h3
  · rw [h3] at hi
    obtain ⟨x, y, hx, hy⟩ := h.now i hi
    exact ⟨x, y ++ new, by rw [h1, hx]; simp, hy.imp_left fun hy => List.mem_append_left _ hy⟩
  · rw [h3] at hi; cases hi

theorem Fresh.attempting {b : Bool} {a : Adapter} (h : Fresh b a) : Fresh false (a.note .attempting) := by
  refine ⟨h.past.append (new := [.attempting]) (by simp), fun i hi => ?_⟩
  obtain ⟨x, y, hx, _⟩ := h.now i hi
  exact ⟨x, y ++ [.attempting], by show a.log ++ _ = _; rw [hx]; simp, .inl (by simp)⟩

/-- Answering the `connect()` that waits. -/
theorem Fresh.complete {b : Bool} {a : Adapter} (h : Fresh b a) {n : Note} (hn : ∀ i c, n ≠ .connectDone i c) {c : Code}
    (hc : ∀ i, c = .ok → a.onComplete = some i → Earned (a.log ++ [n]) i) (st : AState) :
    Fresh b { (a.note n).completeConnect c with state := st } := by
  have h1 : AllEarned (a.log ++ [n]) := h.past.append (by simpa using fun i => hn i .ok)
  refine ⟨?_, fun i hi => ?_⟩
  · show AllEarned ((a.note n).completeConnect c).log
    unfold Adapter.completeConnect
    split
    · exact h1
    · rename_i i hi
      refine h1.snoc fun j hj => ?_
      injection hj with hj1 hj2
      subst hj1
      exact hc i hj2 hi
  · have : ((a.note n).completeConnect c).onComplete = some i := hi
    rw [completeConnect_onComplete] at this
    cases this

theorem Fresh.onEvent {b : Bool} {a : Adapter} {e : LEvent} (h : Fresh b a) (hs : e = .success → b = false) :
    Fresh b (a.onEvent e) := by
  unfold Adapter.onEvent
  cases e with
  | attempting =>
    have := h.attempting
    exact ⟨this.past, fun i hi => by
      obtain ⟨x, y, h1, h2⟩ := this.now i hi
      exact ⟨x, y, h1, h2.imp_right fun h => by cases h⟩⟩
  | success =>
    dsimp only
    split
    · exact h
    · refine h.complete (by simp) (fun i _ hi => .inr ?_) _
      obtain ⟨x, y, h1, h2⟩ := h.now i hi
      rcases h2 with h2 | h2
      · exact ⟨x, y, by rw [h1]; simp, h2⟩
      · rw [hs rfl] at h2; cases h2
    · exact h.of (new := [.connectionSuccess, .resumed]) (by simp [Adapter.note]) (by simp) (.inl rfl)
  | failure e =>
    dsimp only
    split
    · exact h
    · split
      · exact h
      · exact h.complete (by simp) (fun i hc _ => .inl ⟨a.log, by rw [hc]⟩) _
      · exact h.of (new := [_]) rfl (by simp) (.inl rfl)
  | disconnection e =>
    dsimp only
    split
    · exact h.of (new := [_]) rfl (by simp) (.inl rfl)
    · exact h
  | stopped =>
    show Fresh b { a.completeDisconnect.note .closed with state := .stayDisconnected }
    unfold Adapter.completeDisconnect
    split
    · exact h.of (new := [.closed]) rfl (by simp) (.inl rfl)
    · rename_i i _
      exact h.of (new := [.disconnectDone i, .closed]) (by simp [Adapter.note]) (by simp) (.inl rfl)

theorem Fresh.onEffect {b : Bool} {a : Adapter} (e : Effect) (h : Fresh b a) : Fresh b (a.onEffect e) := by
  have hx := onEffect_effected a e
  generalize a.onEffect e = a' at hx ⊢
  cases hx with
  | none => exact h
  | finish => exact h.of (new := [_]) rfl (by simp) (.inl rfl)
  | publish => exact h.of (new := [_]) rfl (by simp) (.inl rfl)

theorem Fresh.overlook {b : Bool} {a : Adapter} (e : LEvent) (h : Fresh b a) : Fresh b (a.overlook e) := by
  unfold Adapter.overlook
  split
  · exact h.of (new := [_]) rfl (by simp) (.inl rfl)
  · exact h

theorem Fresh.counts {b : Bool} {a a' : Adapter} (h : Fresh b a) (hc : Counts a a') : Fresh b a' :=
  h.of (new := []) (by rw [hc.log]; simp) (by simp) (.inl hc.onComplete)

/-- The adapter and the client. -/
def FreshInv (s : Sys) : Prop := ∃ b, Fresh b s.ad ∧ (b = true → Held s.client.ctl)

/-- A step of the client that reports success only as it may. -/
theorem FreshInv.react {s : Sys} {c : Client} (h : FreshInv s) {new : List LEvent}
    (he : c.ctl.events = s.client.ctl.events ++ new)
    (hk : Held s.client.ctl → (∃ rest, new = .attempting :: rest ∧ .success ∉ rest) ∨ .success ∉ new ∧ Held c.ctl) :
    FreshInv (s.react c) := by
  obtain ⟨b, hb, hh⟩ := h
  have fin : ∀ b (a : Adapter), Fresh b a → Fresh b ((c.ops.log.drop s.client.ops.log.length).foldl Adapter.onEffect a) :=
    fun b a h => fold_keep (P := Fresh b) _ (fun a x _ ha => ha.onEffect x) h
  have one : ∀ (f : Bool) b (l : List LEvent) (a : Adapter), Fresh b a → (b = true → .success ∉ l) →
      Fresh b (l.foldl (if f then Adapter.onEvent else Adapter.overlook) a) := by
    intro f b l a ha hl
    refine fold_keep (P := Fresh b) l (fun a x hx ha => ?_) ha
    split
    · refine ha.onEvent fun hxs => ?_
      cases b with
      | false => rfl
      | true => exact absurd (hxs ▸ hx) (hl rfl)
    · exact ha.overlook x
  unfold Sys.react FreshInv
  rw [he, List.drop_left]
  cases b with
  | false => exact ⟨false, fin _ _ (one s.ad.attached false new s.ad hb (by simp)), by simp⟩
  | true =>
    rcases hk (hh rfl) with ⟨rest, rfl, hr⟩ | ⟨h1, h2⟩
    · refine ⟨false, fin _ _ ?_, by simp⟩
      rw [List.foldl_cons]
      refine one s.ad.attached false rest _ ?_ (by simp)
      have : (if s.ad.attached then Adapter.onEvent else Adapter.overlook) s.ad .attempting = s.ad.note .attempting := by
        split <;> rfl
      rw [this]
      exact hb.attempting
    · exact ⟨true, fin _ _ (one s.ad.attached true new s.ad hb fun _ => h1), fun _ => h2⟩

theorem FreshInv.soft {s : Sys} {c : Client} (h : FreshInv s) {k : Client5.Control} (hk : k.events = s.client.ctl.events)
    (hh : Held s.client.ctl → Held k) (hs : Soft k c.ctl) : FreshInv (s.react c) := by
  obtain ⟨new, h1, h2⟩ := hs.events
  exact h.react (by rw [h1, hk]) fun hx => .inr ⟨(Client5.ends_not h2).1, hs.held (hh hx)⟩

theorem connectClient_held {c : Client} (h : Client5.EventInv c.ctl) (o : ConnectOptions) : Held (connectClient c o).ctl := by
  have h1 : Client5.EventInv (updateSettings c o).ctl := ⟨h.fits, h.rest, h.early, h.opened, h.slot, h.up⟩
  have h2 := Client5.resetConnection_held h1
  unfold connectClient
  rw [Client5.setDesired_none]
  exact ⟨h2.mqtt, h2.up, h2.reset⟩

theorem FreshInv.counts {s : Sys} {a : Adapter} (h : FreshInv s) (hc : Counts s.ad a) : FreshInv { s with ad := a } := by
  obtain ⟨b, hb, hh⟩ := h
  exact ⟨b, hb.counts hc, hh⟩

theorem FreshInv.ad {s : Sys} (h : FreshInv s) {a : Adapter} {new : List Note} (h1 : a.log = s.ad.log ++ new)
    (h2 : ∀ n ∈ new, ∀ i, n ≠ .connectDone i .ok) (h3 : a.onComplete = s.ad.onComplete ∨ a.onComplete = none) :
    FreshInv { s with ad := a } := by
  obtain ⟨b, hb, hh⟩ := h
  exact ⟨b, hb.of h1 h2 h3, hh⟩

theorem halt_log (a : Adapter) : ∃ new, a.halt.log = a.log ++ new ∧ (∀ n ∈ new, ∀ i, n ≠ .connectDone i .ok) ∧
    (a.halt.onComplete = a.onComplete ∨ a.halt.onComplete = none) := by
  unfold Adapter.halt
  split
  · unfold Adapter.completeConnect
    split
    · exact ⟨[], by simp, by simp, .inl rfl⟩
    · exact ⟨[_], rfl, by simp, .inr rfl⟩
  · exact ⟨[], by simp, by simp, .inl rfl⟩

theorem FreshInv.ran {s s' : Sys} {t : Task} (h : FreshInv s) (hv : Client5.EventInv s.client.ctl) (hran : Ran s t s') :
    FreshInv s' := by
  cases hran with
  | attach =>
    exact FreshInv.counts (s := { s with ad := { s.ad with attached := true } })
      (h.ad (new := []) (by simp) (by simp) (.inl rfl)) (releaseListener_counts _)
  | detach =>
    exact FreshInv.counts (s := { s with ad := { s.ad with attached := false } })
      (h.ad (new := []) (by simp) (by simp) (.inl rfl)) (releaseInternal_counts _)
  | connect i o =>
    refine FreshInv.counts (s := s.connectTask i o) ?_ (releaseInternal_counts _)
    by_cases hs : s.ad.state = .stayDisconnected
    · rw [connectTask_start hs]
      refine ⟨true, ?_, fun _ => connectClient_held hv o⟩
      obtain ⟨b, hb, _⟩ := h
      have hl : ∃ new, s.ad.completeDisconnect.log = s.ad.log ++ new ∧ ∀ n ∈ new, ∀ i, n ≠ .connectDone i .ok := by
        unfold Adapter.completeDisconnect
        split
        · exact ⟨[], by simp, by simp⟩
        · exact ⟨[_], rfl, by simp⟩
      obtain ⟨new, h1, h2⟩ := hl
      refine ⟨?_, fun j hj => ?_⟩
      · show AllEarned (s.ad.completeDisconnect.log ++ [.connecting i])
        rw [h1]
        exact (hb.past.append h2).append (by simp)
      · have hj : some i = some j := hj
        cases hj
        exact ⟨s.ad.completeDisconnect.log, [], rfl, .inr rfl⟩
    · rw [connectTask_refuse hs]
      exact h.ad (new := [_]) rfl (by simp) (.inl rfl)
  | disconnect i =>
    refine FreshInv.counts (s := s.disconnectTask i) ?_ (releaseInternal_counts _)
    by_cases hs : s.ad.state = .stayDisconnected
    · rw [disconnectTask_idle hs]
      exact h.ad (new := [_]) rfl (by simp) (.inl rfl)
    · obtain ⟨new, h1, h2, h3⟩ := halt_log s.ad
      by_cases hd : s.client.ctl.desired = .stopped
      · rw [disconnectTask_stopped hs hd]
        refine h.ad (new := new ++ [.disconnectDone i, .closed]) ?_ ?_ h3
        · show (s.ad.halt.log ++ [_]) ++ [_] = _
          rw [h1]
          simp
        · intro n hn
          rcases List.mem_append.1 hn with hn | hn
          · exact h2 n hn
          · rcases List.mem_cons.1 hn with rfl | hn
            · intro j hj; cases hj
            · rw [List.mem_singleton.1 hn]; intro j hj; cases hj
      · rw [disconnectTask_stop hs hd]
        obtain ⟨b, hb, hh⟩ := h
        refine ⟨b, hb.of (new := new) h1 h2 h3, fun hx => ?_⟩
        show Held (s.client.setDesired .stopped none).ctl
        rw [Client5.setDesired_none]
        exact ⟨(hh hx).mqtt, (hh hx).up, (hh hx).reset⟩
  | submit id s1 hsub =>
    refine FreshInv.counts (s := s1) ?_ (releaseInternal_counts _)
    cases hsub with
    | ended op r _ => exact h.ad (new := [_]) rfl (by simp) (.inl rfl)
    | sent op op' set p _ _ _ _ =>
      unfold Sys.submitOp
      refine FreshInv.soft (s := Sys.mk s.cfg s.client _) (k := s.client.ctl)
        (h.ad (new := []) (by simp) (by simp) (.inl rfl)) rfl (fun h => h) (.submitted s.cfg s.client p)
  | destroy =>
    refine h.ad (new := (s.ad.table.map fun p => .finished p.2.call p.1 (failResult p.2.kind)) ++ [.terminated]) ?_ ?_ (.inl rfl)
    · show (s.ad.log ++ _) ++ [Note.terminated] = _
      rw [List.append_assoc]
    · intro n hn
      rcases List.mem_append.1 hn with hn | hn
      · obtain ⟨p, _, rfl⟩ := List.mem_map.1 hn
        intro j hj; cases hj
      · rw [List.mem_singleton.1 hn]; intro j hj; cases hj

theorem FreshInv.did {s s' : Sys} {e : Event} (h : FreshInv s) (hg : Good s) (he : Enabled s e) (hd : Did s e s') :
    FreshInv s' := by
  cases hd with
  | refused => exact h
  | connect o _ _ => exact h.ad (new := [_]) rfl (by simp) (.inl rfl)
  | disconnect => exact h.ad (new := [_]) rfl (by simp) (.inl rfl)
  | add _ k _ _ =>
    unfold Adapter.add
    split
    · exact h.ad (new := []) (by simp) (by simp) (.inl rfl)
    · exact h.ad (new := [_]) rfl (by simp) (.inl rfl)
  | acquire => exact h.ad (new := []) (by simp [Adapter.acquire]) (by simp) (.inl rfl)
  | release => exact h.counts (release_counts s.ad)
  | run t ts _ ht hrun =>
    obtain ⟨hg0, hran⟩ := runTask_ran hrun
    exact FreshInv.ran (s := { s with ad := { s.ad with tasks := ts } })
      (h.ad (new := []) (by simp) (by simp) (.inl rfl)) hg.client.event hran
  | client e c hstep _ =>
    by_cases h1 : ∃ d v, e = .setDesired d v
    · obtain ⟨d, v, rfl⟩ := h1
      cases hstep
      exact h.soft (k := { s.client.ctl with desired := d }) rfl (fun hh => ⟨hh.mqtt, hh.up, hh.reset⟩)
        (Client5.setDesired_soft s.client d v)
    · have hl := Client5.step_life hstep he.1 (fun d v hx => h1 ⟨d, v, hx⟩) (fun hr => by subst hr; exact he.2.elim)
      obtain ⟨_, new, he', _⟩ := hl.events
      refine h.react he' fun hh => ?_
      obtain ⟨new', h2, h3⟩ := hl.held hh
      have : new' = new := List.append_cancel_left (h2.symm.trans he')
      subst this
      exact h3

theorem reachable_fresh {allow : Sys → Event → Prop} {s : Sys} (h : ReachableIf allow s) : FreshInv s := by
  have : Good s ∧ FreshInv s := by
    refine reachable_induct (P := fun s => Good s ∧ FreshInv s) (fun cfg c hc hd => ?_)
      (fun _ _ _ hl he _ hd => ⟨hl.1.did he hd, hl.2.did hl.1 he hd⟩) h
    refine ⟨reachable_good (allow := allow) (.new hc hd), false, ⟨fun pre i post hx => ?_, fun i hi => by cases hi⟩, by simp⟩
    cases pre <;> cases hx
  exact this.2

/-! ## When a `disconnect()` waits -/

/-- A note that does not concern attempts. -/
def Note.steady : Note → Bool
  | .connecting _ => false
  | .attempting => false
  | _ => true

theorem attempted_append {l new : List Note} (h : ∀ n ∈ new, n.steady = true) : attempted (l ++ new) = attempted l := by
  unfold attempted
  rw [List.foldl_append]
  generalize l.foldl Note.attempts false = b
  induction new with
  | nil => rfl
  | cons n new ih =>
    rw [List.foldl_cons]
    have : Note.attempts b n = b := by
      have := h n (List.mem_cons_self ..)
      cases n <;> first | rfl | cases this
    rw [this]
    exact ih fun m hm => h m (List.mem_cons_of_mem _ hm)

theorem onEvent_steady (a : Adapter) (e : LEvent) (he : e ≠ .attempting) : attempted (a.onEvent e).log = attempted a.log := by
  have cc : ∀ (a : Adapter) c, attempted (a.completeConnect c).log = attempted a.log := by
    intro a c
    unfold Adapter.completeConnect
    split
    · rfl
    · exact attempted_append (new := [_]) (by simp [Note.steady])
  have nt : ∀ (a : Adapter) n, n.steady = true → attempted (a.note n).log = attempted a.log := fun a n hn =>
    attempted_append (new := [n]) (by simpa using hn)
  unfold Adapter.onEvent
  cases e with
  | attempting => exact absurd rfl he
  | success =>
    dsimp only
    split
    · rfl
    · exact (cc _ _).trans (nt _ _ rfl)
    · exact (nt _ _ rfl).trans (nt _ _ rfl)
  | failure e =>
    dsimp only
    split
    · rfl
    · split
      · rfl
      · exact (cc _ _).trans (nt _ _ rfl)
      · exact nt _ _ rfl
  | disconnection e =>
    dsimp only
    split
    · exact nt _ _ rfl
    · rfl
  | stopped =>
    refine (nt a.completeDisconnect .closed rfl).trans ?_
    unfold Adapter.completeDisconnect
    split
    · rfl
    · exact nt _ _ rfl

theorem onEffect_steady (a : Adapter) (e : Effect) : attempted (a.onEffect e).log = attempted a.log := by
  have hx := onEffect_effected a e
  generalize a.onEffect e = a' at hx ⊢
  cases hx with
  | none => rfl
  | finish => exact attempted_append (new := [_]) (by simp [Note.steady])
  | publish => exact attempted_append (new := [_]) (by simp [Note.steady])

/-- The adapter neither tries to connect nor waits for the client to stop. -/
def Idle (a : Adapter) : Prop := a.state = .stayDisconnected ∧ a.onDisconnect = none

theorem onEvent_idle (a : Adapter) (e : LEvent) (h : Idle a ∨ e = .stopped) : Idle (a.onEvent e) := by
  rcases h with ⟨h1, h2⟩ | rfl
  · unfold Adapter.onEvent
    cases e with
    | attempting => exact ⟨h1, h2⟩
    | success => dsimp only; rw [h1]; exact ⟨h1, h2⟩
    | failure e =>
      dsimp only
      split
      · exact ⟨h1, h2⟩
      · rw [h1]; exact ⟨h1, h2⟩
    | disconnection e =>
      dsimp only
      split
      · exact ⟨h1, h2⟩
      · exact ⟨h1, h2⟩
    | stopped => exact ⟨rfl, completeDisconnect_onDisconnect a⟩
  · exact ⟨rfl, completeDisconnect_onDisconnect a⟩

theorem events_idle {l : List LEvent} {a : Adapter} (h : Idle a ∨ .stopped ∈ l) : Idle (l.foldl Adapter.onEvent a) := by
  induction l generalizing a with
  | nil => exact h.resolve_right (by simp)
  | cons e l ih =>
    rw [List.foldl_cons]
    apply ih
    rcases h with h | h
    · exact .inl (onEvent_idle a e (.inl h))
    · rcases List.mem_cons.1 h with rfl | h
      · exact .inl (onEvent_idle a _ (.inr rfl))
      · exact .inr h

/-- A client that is stopped while the adapter wants something of it has not begun to connect. -/
def Waits (s : Sys) : Prop :=
  s.ad.attached = true → ¬ Idle s.ad → s.client.ctl.state = .stopped → attempted s.ad.log = false

theorem effects_idle (l : List Effect) (a : Adapter) : Idle (l.foldl Adapter.onEffect a) ↔ Idle a := by
  obtain ⟨h1, _, h3⟩ := effects_parts l a
  unfold Idle
  rw [h1, h3]

theorem effects_steady (l : List Effect) (a : Adapter) : attempted (l.foldl Adapter.onEffect a).log = attempted a.log := by
  induction l generalizing a with
  | nil => rfl
  | cons e l ih => exact (ih _).trans (onEffect_steady a e)

theorem Waits.react {s : Sys} {c : Client} (h : Waits s) {new : List LEvent} (he : c.ctl.events = s.client.ctl.events ++ new)
    (hs : c.ctl.state = .stopped → .stopped ∈ new ∨ s.client.ctl.state = .stopped ∧ .attempting ∉ new) : Waits (s.react c) := by
  intro ha hi hst
  have ha : s.ad.attached = true := (react_same s c).attached ▸ ha
  rw [react_attached ha he] at hi ⊢
  rw [effects_idle] at hi
  rw [effects_steady]
  rcases hs hst with h1 | ⟨h1, h2⟩
  · exact absurd (events_idle (.inr h1)) hi
  · have hi' : ¬ Idle s.ad := fun hx => hi (events_idle (.inl hx))
    have : attempted (new.foldl Adapter.onEvent s.ad).log = attempted s.ad.log := by
      refine fold_keep (P := fun a : Adapter => attempted a.log = attempted s.ad.log) new (fun a x hx ha => ?_) rfl
      exact (onEvent_steady a x (fun hxa => h2 (hxa ▸ hx))).trans ha
    rw [this]
    exact h ha hi' h1

theorem Waits.of {s s' : Sys} (h : Waits s) (h1 : s'.ad.attached = true → s.ad.attached = true) (h2 : Idle s.ad → Idle s'.ad)
    (h3 : s'.client.ctl.state = .stopped → s.client.ctl.state = .stopped) (h4 : attempted s'.ad.log = attempted s.ad.log) :
    Waits s' := fun ha hi hs => by
  rw [h4]
  exact h (h1 ha) (fun hx => hi (h2 hx)) (h3 hs)

theorem Waits.counts {s : Sys} {a : Adapter} (h : Waits s) (hc : Counts s.ad a) : Waits { s with ad := a } :=
  h.of (fun ha => hc.attached ▸ ha) (fun hi => ⟨hc.state.trans hi.1, hc.onDisconnect.trans hi.2⟩) (fun hs => hs)
    (by show attempted a.log = _; rw [hc.log])

theorem Waits.ran {s s' : Sys} {t : Task} (h : Waits s) (hf : t = .attach → Idle s.ad) (hran : Ran s t s') : Waits s' := by
  cases hran with
  | attach =>
    refine Waits.counts (s := { s with ad := { s.ad with attached := true } }) ?_ (releaseListener_counts _)
    exact fun _ hi => absurd (hf rfl) hi
  | detach =>
    refine Waits.counts (s := { s with ad := { s.ad with attached := false } }) ?_ (releaseInternal_counts _)
    exact fun ha => by cases ha
  | connect i o =>
    refine Waits.counts (s := s.connectTask i o) ?_ (releaseInternal_counts _)
    by_cases hs : s.ad.state = .stayDisconnected
    · rw [connectTask_start hs]
      intro _ _ _
      show attempted (s.ad.completeDisconnect.log ++ [.connecting i]) = false
      unfold attempted
      rw [List.foldl_append]
      rfl
    · rw [connectTask_refuse hs]
      exact h.of (fun ha => ha) (fun hi => hi) (fun hs => hs) (attempted_append (new := [_]) (by simp [Note.steady]))
  | disconnect i =>
    refine Waits.counts (s := s.disconnectTask i) ?_ (releaseInternal_counts _)
    by_cases hs : s.ad.state = .stayDisconnected
    · rw [disconnectTask_idle hs]
      exact h.of (fun ha => ha) (fun hi => hi) (fun hs => hs) (attempted_append (new := [_]) (by simp [Note.steady]))
    · have hl : attempted s.ad.halt.log = attempted s.ad.log := by
        unfold Adapter.halt
        split
        · unfold Adapter.completeConnect
          split
          · rfl
          · exact attempted_append (new := [_]) (by simp [Note.steady])
        · rfl
      by_cases hd : s.client.ctl.desired = .stopped
      · rw [disconnectTask_stopped hs hd]
        refine h.of (fun ha => (halt_same s.ad).attached ▸ ha) (fun hi => absurd hi.1 hs) (fun hs => hs) ?_
        exact (attempted_append (new := [_]) (by simp [Note.steady])).trans
          ((attempted_append (new := [_]) (by simp [Note.steady])).trans hl)
      · rw [disconnectTask_stop hs hd]
        refine h.of (fun ha => (halt_same s.ad).attached ▸ ha) (fun hi => absurd hi.1 hs) (fun hs => ?_) hl
        have hs : (s.client.setDesired .stopped none).ctl.state = .stopped := hs
        rw [Client5.setDesired_none] at hs
        exact hs
  | submit id s1 hsub =>
    refine Waits.counts (s := s1) ?_ (releaseInternal_counts _)
    cases hsub with
    | ended op r _ =>
      exact h.of (fun ha => ha) (fun hi => hi) (fun hs => hs) (attempted_append (new := [_]) (by simp [Note.steady]))
    | sent op op' set p _ _ _ _ =>
      unfold Sys.submitOp
      refine Waits.react (s := Sys.mk s.cfg s.client _) (new := []) (h.of (fun ha => ha) (fun hi => hi) (fun hs => hs) rfl) ?_ ?_
      · show (s.client.submit s.cfg p 0 false).ctl.events = _
        rw [Client5.submit_ctl]
        simp
      · show (s.client.submit s.cfg p 0 false).ctl.state = _ → _
        rw [Client5.submit_ctl]
        exact fun hs => .inr ⟨hs, by simp⟩
  | destroy =>
    refine h.of (fun ha => ha) (fun hi => hi) (fun hs => hs) ?_
    show attempted ((s.ad.log ++ _) ++ [Note.terminated]) = _
    refine (attempted_append (new := [_]) (by simp [Note.steady])).trans (attempted_append fun n hn => ?_)
    obtain ⟨p, _, rfl⟩ := List.mem_map.1 hn
    rfl

theorem Waits.did {s s' : Sys} {e : Event} (h : Waits s) (hg : Good s) (he : Enabled s e) (hd : Did s e s') : Waits s' := by
  have st : ∀ (l : List Note) n, n.steady = true → attempted (l ++ [n]) = attempted l := fun l n hn =>
    attempted_append (by simpa using hn)
  cases hd with
  | refused => exact h
  | connect o _ _ => exact h.of (fun ha => ha) (fun hi => hi) (fun hs => hs) (st _ _ rfl)
  | disconnect => exact h.of (fun ha => ha) (fun hi => hi) (fun hs => hs) (st _ _ rfl)
  | add _ k _ _ =>
    unfold Adapter.add
    split
    · exact h.of (fun ha => ha) (fun hi => hi) (fun hs => hs) rfl
    · exact h.of (fun ha => ha) (fun hi => hi) (fun hs => hs) (st _ _ rfl)
  | acquire => exact h.of (fun ha => ha) (fun hi => hi) (fun hs => hs) rfl
  | release => exact h.counts (release_counts s.ad)
  | run t ts _ ht hrun =>
    obtain ⟨hg0, hran⟩ := runTask_ran hrun
    refine Waits.ran (s := { s with ad := { s.ad with tasks := ts } })
      (h.of (fun ha => ha) (fun hi => hi) (fun hs => hs) rfl) (fun hx => ?_) hran
    subst hx
    have bad : ¬ Task.isRef .attach = true := by simp [Task.isRef]
    cases hg.refs with
    | fresh _ _ _ _ _ _ _ hu => exact ⟨hu.1, hu.3⟩
    | live h1 => exact absurd (h1 _ (by rw [ht]; exact List.mem_cons_self ..)) bad
    | dying ts' e1 e2 =>
      cases ts' with
      | nil => rw [ht] at e1; cases e1
      | cons x l =>
        rw [ht] at e1
        injection e1 with e1 _
        exact absurd (e2 x (List.mem_cons_self ..)) (e1 ▸ bad)
    | dead e1 => rw [ht] at e1; cases e1
    | gone e1 => rw [ht] at e1; cases e1
  | client e c hstep _ =>
    by_cases h1 : ∃ d v, e = .setDesired d v
    · obtain ⟨d, v, rfl⟩ := h1
      cases hstep
      have hs := Client5.setDesired_soft s.client d v
      obtain ⟨new, h2, h3⟩ := hs.events
      refine h.react (new := new) h2 fun hst => .inr ⟨?_, (Client5.ends_not h3).2.2⟩
      rcases hs.state with h | ⟨_, h | h⟩
      · rw [← hst]; exact h.symm
      · rw [hst] at h; cases h
      · rw [hst] at h; cases h
    · have hl := Client5.step_life hstep he.1 (fun d v hx => h1 ⟨d, v, hx⟩) (fun hr => by subst hr; exact he.2.elim)
      obtain ⟨_, new, he', _, h4⟩ := hl.events
      exact h.react he' h4

theorem reachable_waits {allow : Sys → Event → Prop} {s : Sys} (h : ReachableIf allow s) : Waits s := by
  have : Good s ∧ Waits s := by
    refine reachable_induct (P := fun s => Good s ∧ Waits s) (fun cfg c hc hd => ?_)
      (fun _ _ _ hl he _ hd => ⟨hl.1.did he hd, hl.2.did hl.1 he hd⟩) h
    exact ⟨reachable_good (allow := allow) (.new hc hd), fun ha => by cases ha⟩
  exact this.2

end Mqtt.Adapter
