import Verif.Lemmas.AdapterStems

/-!
After `disconnect()`: the adapter says nothing of connections, and a client that it has stopped stays so.
-/
namespace Mqtt.Client5

/-- A client that is not to be connected makes no attempt to connect. -/
theorem Life.down {k k' : Control} (h : Life k k') (hd : k.desired ≠ .connected) :
    ∃ new, k'.events = k.events ++ new ∧ .attempting ∉ new := by
  cases h with
  | soft h =>
    obtain ⟨new, h1, h2⟩ := h.events
    exact ⟨new, h1, (ends_not h2).2.2⟩
  | attempt _ h => exact absurd h hd
  | lost _ h => exact absurd h hd
  | stopped new _ _ h1 h2 => exact ⟨new ++ [.stopped], by rw [h1, List.append_assoc], by simp [(ends_not h2).2.2]⟩
  | opened _ h => exact absurd h hd
  | closing new _ _ h1 h2 => exact ⟨new, h1, (ends_not h2).2.2⟩
  | connected new _ _ h1 h2 => exact ⟨new ++ [.success], by rw [h1, List.append_assoc], by simp [(ends_not h2).2.2]⟩
  | terminated new _ _ _ h1 h2 => exact ⟨new, h1, (ends_not h2).2.2⟩

end Mqtt.Client5

namespace Mqtt.Adapter
open Client5 (Client Control Life LEvent Soft)

/-- The log grows by notes that are not of connections. With `b` they may tell of attempts of the client. -/
def Hush (b : Bool) (l l' : List Note) : Prop :=
  ∃ new, l' = l ++ new ∧ ∀ n ∈ new, n.ofConnection = false ∧ (b = true ∨ n ≠ .attempting)

theorem Hush.refl (b : Bool) (l : List Note) : Hush b l l := ⟨[], by simp, by simp⟩

theorem Hush.trans {b : Bool} {l1 l2 l3 : List Note} (h : Hush b l1 l2) (h' : Hush b l2 l3) : Hush b l1 l3 := by
  obtain ⟨n1, h1, h2⟩ := h
  obtain ⟨n2, h3, h4⟩ := h'
  refine ⟨n1 ++ n2, by rw [h3, h1, List.append_assoc], fun n hn => ?_⟩
  rcases List.mem_append.1 hn with hn | hn
  · exact h2 n hn
  · exact h4 n hn

theorem Hush.one {b : Bool} (l : List Note) (n : Note) (h : n.ofConnection = false) (hn : b = true ∨ n ≠ .attempting) :
    Hush b l (l ++ [n]) := ⟨[n], rfl, by simpa using ⟨h, hn⟩⟩

theorem Hush.more {b : Bool} {l l' : List Note} (h : Hush b l l') : Hush true l l' := by
  obtain ⟨new, h1, h2⟩ := h
  exact ⟨new, h1, fun n hn => ⟨(h2 n hn).1, .inl rfl⟩⟩

theorem completeDisconnect_hush (b : Bool) (a : Adapter) : Hush b a.log a.completeDisconnect.log := by
  unfold Adapter.completeDisconnect
  split
  · exact .refl b _
  · exact .one _ _ rfl (.inr (by simp))

theorem onEvent_hush {a : Adapter} (hs : a.state = .stayDisconnected) (b : Bool) (e : LEvent) (he : b = true ∨ e ≠ .attempting) :
    (a.onEvent e).state = .stayDisconnected ∧ Hush b a.log (a.onEvent e).log := by
  unfold Adapter.onEvent
  cases e with
  | attempting => exact ⟨hs, .one _ _ rfl (.inl (he.resolve_right (by simp)))⟩
  | success => rw [hs]; exact ⟨hs, .refl _ _⟩
  | failure e =>
    dsimp only
    split
    · exact ⟨hs, .refl _ _⟩
    · rw [hs]; exact ⟨hs, .refl _ _⟩
  | disconnection e =>
    dsimp only
    rw [if_neg (fun h => by rw [hs] at h; cases h.1)]
    exact ⟨hs, .refl _ _⟩
  | stopped => exact ⟨rfl, (completeDisconnect_hush b a).trans (.one _ _ rfl (.inr (by simp)))⟩

theorem overlook_hush {a : Adapter} (hs : a.state = .stayDisconnected) (b : Bool) (e : LEvent) (he : b = true ∨ e ≠ .attempting) :
    (a.overlook e).state = .stayDisconnected ∧ Hush b a.log (a.overlook e).log := by
  cases e with
  | attempting => exact ⟨hs, .one _ _ rfl (.inl (he.resolve_right (by simp)))⟩
  | _ => exact ⟨hs, .refl _ _⟩

theorem onEffect_hush {a : Adapter} (b : Bool) (e : Client5.Effect) :
    (a.onEffect e).state = a.state ∧ Hush b a.log (a.onEffect e).log := by
  generalize hx : a.onEffect e = a'
  have he := onEffect_effected a e
  rw [hx] at he
  cases he with
  | none => exact ⟨rfl, .refl _ _⟩
  | finish uid id op e ack _ => exact ⟨rfl, .one _ _ rfl (.inr (by simp))⟩
  | publish v => exact ⟨rfl, .one _ _ rfl (.inr (by simp))⟩

theorem react_hush {s : Sys} (hs : s.ad.state = .stayDisconnected) (b : Bool) (c : Client)
    (hb : b = true ∨ ∃ new, c.ctl.events = s.client.ctl.events ++ new ∧ .attempting ∉ new) :
    (s.react c).ad.state = .stayDisconnected ∧ Hush b s.ad.log (s.react c).ad.log := by
  unfold Sys.react
  dsimp only
  refine fold_keep (P := fun a : Adapter => a.state = .stayDisconnected ∧ Hush b s.ad.log a.log) _ (fun a x _ ha => ?_) ?_
  · obtain ⟨h1, h2⟩ := onEffect_hush (a := a) b x
    exact ⟨h1.trans ha.1, ha.2.trans h2⟩
  · refine fold_keep (P := fun a : Adapter => a.state = .stayDisconnected ∧ Hush b s.ad.log a.log) _ (fun a x hx ha => ?_) ⟨hs, .refl _ _⟩
    have hxa : b = true ∨ x ≠ .attempting := by
      rcases hb with hb | ⟨new, h1, h2⟩
      · exact .inl hb
      · rw [h1, List.drop_left] at hx
        exact .inr fun h => h2 (h ▸ hx)
    split
    · obtain ⟨h1, h2⟩ := onEvent_hush ha.1 b x hxa
      exact ⟨h1, ha.2.trans h2⟩
    · obtain ⟨h1, h2⟩ := overlook_hush ha.1 b x hxa
      exact ⟨h1, ha.2.trans h2⟩

/-- The adapter does not want a connection. -/
structure Down (s : Sys) : Prop where
  state : s.ad.state = .stayDisconnected
  tasks : ∀ t ∈ s.ad.tasks, t.isConnect = false

theorem failAll_hush (b : Bool) (a : Adapter) : a.failAll.state = a.state ∧ a.failAll.tasks = a.tasks ∧ Hush b a.log a.failAll.log := by
  refine ⟨rfl, rfl, _, rfl, fun n hn => ?_⟩
  obtain ⟨p, _, rfl⟩ := List.mem_map.1 hn
  exact ⟨rfl, .inr (by simp)⟩

/-- One step leaves the adapter without a wish for a connection. -/
structure Calm (b : Bool) (s s' : Sys) : Prop where
  down : Down s'
  hush : Hush b s.ad.log s'.ad.log
  desired : b = true ∨ s'.client.ctl.desired = s.client.ctl.desired

theorem Calm.counts {b : Bool} {s s1 : Sys} (h : Calm b s s1) {a : Adapter} (hc : Counts s1.ad a)
    (ht : ∃ new, a.tasks = s1.ad.tasks ++ new ∧ ∀ t ∈ new, t.final = true) : Calm b s { s1 with ad := a } :=
  ⟨⟨hc.state.trans h.down.state, final_tasks h.down.tasks ht⟩, (by rw [hc.log]; exact h.hush), h.desired⟩

theorem Down.react {s : Sys} (h : Down s) (b : Bool) {c : Client} (hb : b = true ∨ s.client.ctl.desired ≠ .connected)
    (hl : b = true ∨ Life s.client.ctl c.ctl) : Calm b s (s.react c) := by
  have hn : b = true ∨ c.ctl.desired = s.client.ctl.desired ∧
      ∃ new, c.ctl.events = s.client.ctl.events ++ new ∧ .attempting ∉ new := by
    rcases hl with hl | hl
    · exact .inl hl
    · rcases hb with hb | hb
      · exact .inl hb
      · exact .inr ⟨hl.events.1, hl.down hb⟩
  obtain ⟨h1, h2⟩ := react_hush h.state b c (hn.imp_right And.right)
  exact ⟨⟨h1, by rw [(react_same s c).tasks]; exact h.tasks⟩, h2, hn.imp_right And.left⟩

theorem Down.ran {s s' : Sys} {t : Task} (h : Down s) (b : Bool) (hb : b = true ∨ s.client.ctl.desired ≠ .connected)
    (ht : t.isConnect = false) (hran : Ran s t s') : Calm b s s' := by
  cases hran with
  | attach =>
    have h0 : Calm b s { s with ad := { s.ad with attached := true } } := ⟨⟨h.state, h.tasks⟩, .refl _ _, .inr rfl⟩
    exact h0.counts (releaseListener_counts _) (releaseListener_tasks _)
  | detach =>
    have h0 : Calm b s { s with ad := { s.ad with attached := false } } := ⟨⟨h.state, h.tasks⟩, .refl _ _, .inr rfl⟩
    exact h0.counts (releaseInternal_counts _) (releaseInternal_tasks _)
  | connect j o => cases ht
  | disconnect j =>
    have h0 : Calm b s (s.disconnectTask j) := by
      rw [disconnectTask_idle h.state]
      exact ⟨⟨h.state, h.tasks⟩, .one _ _ rfl (.inr (by simp)), .inr rfl⟩
    exact h0.counts (releaseInternal_counts _) (releaseInternal_tasks _)
  | submit id s1 hsub =>
    have h0 : Calm b s s1 := by
      cases hsub with
      | ended op r _ => exact ⟨⟨h.state, h.tasks⟩, .one _ _ rfl (.inr (by simp)), .inr rfl⟩
      | sent op op' set p _ _ _ _ =>
        unfold Sys.submitOp
        have := Down.react (s := Sys.mk s.cfg s.client
          { s.ad with subs := set, table := s.ad.table.set id { op' with uid := some s.client.ops.nextUid } })
          ⟨h.state, h.tasks⟩ b hb (c := s.client.submit s.cfg p 0 false) (.inr (.soft (.submitted s.cfg s.client p)))
        exact ⟨this.down, this.hush, this.desired⟩
    exact h0.counts (releaseInternal_counts _) (releaseInternal_tasks _)
  | destroy =>
    obtain ⟨h1, h2, h3⟩ := failAll_hush b { s.ad with subs := SubscriptionSet.destroy s.ad.subs }
    refine ⟨⟨h1.trans h.state, fun x hx => h.tasks x (h2 ▸ hx)⟩, ?_, .inr rfl⟩
    exact h3.trans (.one _ _ rfl (.inr (by simp)))

theorem Down.did {s s' : Sys} {e : Event} (h : Down s) (b : Bool) (hb : b = true ∨ s.client.ctl.desired ≠ .connected)
    (he : Enabled s e) (ha : NoConnect s e) (hn : b = true ∨ NoStart s e) (hd : Did s e s') : Calm b s s' := by
  have snoc : ∀ t : Task, t.isConnect = false → ∀ x ∈ s.ad.tasks ++ [t], x.isConnect = false := by
    intro t ht x hx
    rcases List.mem_append.1 hx with hx | hx
    · exact h.tasks x hx
    · rw [List.mem_singleton.1 hx]; exact ht
  have stay : Calm b s s := ⟨h, .refl _ _, .inr rfl⟩
  cases hd with
  | refused => exact stay
  | connect o _ _ => exact ha.elim
  | disconnect =>
    exact ⟨⟨h.state, snoc (.disconnect s.ad.calls) rfl⟩, .one _ _ rfl (.inr (by simp)), .inr rfl⟩
  | add _ k _ _ =>
    unfold Adapter.add
    split
    · exact ⟨⟨h.state, h.tasks⟩, .refl _ _, .inr rfl⟩
    · rename_i id _
      exact ⟨⟨h.state, snoc (.submit id) rfl⟩, .one _ _ rfl (.inr (by simp)), .inr rfl⟩
  | acquire => exact ⟨⟨h.state, h.tasks⟩, .refl _ _, .inr rfl⟩
  | release => exact stay.counts (release_counts s.ad) (release_tasks s.ad)
  | run t ts _ ht hrun =>
    obtain ⟨_, hran⟩ := runTask_ran hrun
    have := Down.ran (s := { s with ad := { s.ad with tasks := ts } })
      ⟨h.state, fun x hx => h.tasks x (by rw [ht]; exact List.mem_cons_of_mem _ hx)⟩ b hb
      (h.tasks t (by rw [ht]; exact List.mem_cons_self ..)) hran
    exact ⟨this.down, this.hush, this.desired⟩
  | client e c hstep _ =>
    refine h.react b hb ?_
    rcases hn with hn | hn
    · exact .inl hn
    · exact .inr (Client5.step_life hstep he.1 (fun d v hx => by subst hx; exact hn.elim)
        (fun hr => by subst hr; exact he.2.elim))

/-- Until the user calls `connect()`, they hear nothing of connections. -/
theorem Down.follows {s s' : Sys} (h : Down s) (hf : Follows NoConnect s s') : Down s' ∧ Hush true s.ad.log s'.ad.log := by
  induction hf with
  | refl => exact ⟨h, .refl _ _⟩
  | step _ he ha hs ih =>
    have := ih.1.did true (.inl rfl) he ha (.inl rfl) (step_did hs)
    exact ⟨this.down, ih.2.trans this.hush⟩

/-- A client that is not to be connected stays so, and does not try to connect. -/
theorem Down.stays {s s' : Sys} (h : Down s) (hd : s.client.ctl.desired ≠ .connected) (hf : Follows NoStart s s') :
    Down s' ∧ Hush false s.ad.log s'.ad.log ∧ s'.client.ctl.desired = s.client.ctl.desired := by
  induction hf with
  | refl => exact ⟨h, .refl _ _, rfl⟩
  | @step s1 _ e _ he ha hs ih =>
    have hx : NoConnect s1 e := by
      cases e <;> first | trivial | exact ha.elim
    have := ih.1.did false (.inr (by rw [ih.2.2]; exact hd)) he hx (.inr ha) (step_did hs)
    exact ⟨this.down, ih.2.1.trans this.hush, (this.desired.resolve_left (by simp)).trans ih.2.2⟩

/-- The task of `disconnect()` does not schedule that of a `connect()`. -/
theorem ran_disconnect_tasks {s s' : Sys} {i : Nat} {ts : List Task} (ht : s.ad.tasks = .disconnect i :: ts)
    (hts : ∀ t ∈ ts, t.isConnect = false) (hs : step s .run = .ok s') : ∀ t ∈ s'.ad.tasks, t.isConnect = false := by
  simp only [step] at hs
  rw [ht] at hs
  dsimp only at hs
  obtain ⟨_, hran⟩ := runTask_ran hs
  cases hran
  refine final_tasks ?_ (releaseInternal_tasks _)
  have key : ∀ s0 : Sys, (s0.disconnectTask i).ad.tasks = s0.ad.tasks := by
    intro s0
    have hh : s0.ad.halt.tasks = s0.ad.tasks := by
      unfold Adapter.halt Adapter.completeConnect
      split <;> (try split) <;> rfl
    by_cases h : s0.ad.state = .stayDisconnected
    · rw [disconnectTask_idle h]; rfl
    · by_cases hd : s0.client.ctl.desired = .stopped
      · rw [disconnectTask_stopped h hd]; exact hh
      · rw [disconnectTask_stop h hd]; exact hh
  rw [key]
  exact hts

/-- It leaves the client to be stopped if the adapter was connecting or connected. -/
theorem ran_disconnect_desired {s s' : Sys} {i : Nat} {ts : List Task} (ht : s.ad.tasks = .disconnect i :: ts)
    (hst : s.ad.state ≠ .stayDisconnected) (hs : step s .run = .ok s') : s'.client.ctl.desired = .stopped := by
  simp only [step] at hs
  rw [ht] at hs
  dsimp only at hs
  obtain ⟨_, hran⟩ := runTask_ran hs
  cases hran
  have key : ∀ s0 : Sys, s0.ad.state ≠ .stayDisconnected → (s0.disconnectTask i).client.ctl.desired = .stopped := by
    intro s0 h
    by_cases hd : s0.client.ctl.desired = .stopped
    · rw [disconnectTask_stopped h hd]; exact hd
    · rw [disconnectTask_stop h hd]
      show (s0.client.setDesired .stopped none).ctl.desired = _
      rw [Client5.setDesired_none]
  exact key _ hst

end Mqtt.Adapter
