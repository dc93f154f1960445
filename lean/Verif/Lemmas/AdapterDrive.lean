import Verif.Lemmas.AdapterOps

/-!
The state of the adapter against the state of the client.
-/
namespace Mqtt.Client5

open Mqtt.V5

/-- Nothing that is open or being opened can become a connection. -/
structure Held (k : Control) : Prop where
  mqtt : k.state ≠ .mqttConnect
  up : k.state ≠ .connected
  reset : k.state = .connecting → k.shouldReset = true

theorem Soft.held {k k' : Control} (h : Soft k k') (hk : Held k) : Held k' := by
  rcases h.state with hs | ⟨_, hs | hs⟩
  · exact ⟨by rw [hs]; exact hk.mqtt, by rw [hs]; exact hk.up, fun hx => by rw [h.resets]; exact hk.reset (hs ▸ hx)⟩
  · exact ⟨by simp [hs], by simp [hs], by simp [hs]⟩
  · exact ⟨by simp [hs], by simp [hs], by simp [hs]⟩

theorem ends_not {new : List LEvent} (h : ∀ e ∈ new, e.ends = true) :
    .success ∉ new ∧ .stopped ∉ new ∧ .attempting ∉ new :=
  ⟨fun hx => Bool.false_ne_true (h _ hx), fun hx => Bool.false_ne_true (h _ hx), fun hx => Bool.false_ne_true (h _ hx)⟩

/-- A client that has nothing to become a connection begins an attempt before it reports success. -/
theorem Life.held {k k' : Control} (h : Life k k') (hk : Held k) :
    ∃ new, k'.events = k.events ++ new ∧
      ((∃ rest, new = .attempting :: rest ∧ .success ∉ rest) ∨ .success ∉ new ∧ Held k') := by
  have rest : ∀ {k : Control}, k.state ≠ .mqttConnect → k.state ≠ .connected → k.state ≠ .connecting → Held k :=
    fun h1 h2 h3 => ⟨h1, h2, fun hx => absurd hx h3⟩
  cases h with
  | soft h =>
    obtain ⟨new, h1, h2⟩ := h.events
    exact ⟨new, h1, .inr ⟨(ends_not h2).1, h.held hk⟩⟩
  | attempt _ _ _ _ _ _ h =>
    rcases h with ⟨h, _⟩ | ⟨e, h, _⟩
    · exact ⟨_, h, .inl ⟨[], rfl, by simp⟩⟩
    · exact ⟨_, h, .inl ⟨[.failure e], rfl, by simp⟩⟩
  | lost new _ _ h1 h2 _ h3 => exact ⟨new, h1, .inr ⟨(ends_not h2).1, rest (by simp [h3]) (by simp [h3]) (by simp [h3])⟩⟩
  | stopped new _ _ h1 h2 h3 =>
    exact ⟨new ++ [.stopped], by rw [h1, List.append_assoc], .inr ⟨by simp [(ends_not h2).1],
      rest (by simp [h3]) (by simp [h3]) (by simp [h3])⟩⟩
  | opened h1 _ _ h2 _ _ => rw [hk.reset h1] at h2; cases h2
  | closing new _ _ h1 h2 h3 => exact ⟨new, h1, .inr ⟨(ends_not h2).1, rest (by simp [h3]) (by simp [h3]) (by simp [h3])⟩⟩
  | connected new h1 => exact absurd h1 hk.mqtt
  | terminated new _ _ _ h1 h2 h3 =>
    exact ⟨new, h1, .inr ⟨(ends_not h2).1, rest (by simp [h3]) (by simp [h3]) (by simp [h3])⟩⟩

theorem Soft.submitted (cfg : Config) (c : Client) (p : Outgoing) : Soft c.ctl (c.submit cfg p 0 false).ctl := by
  rw [submit_ctl]
  exact .refl _

/-- The events of one step. -/
theorem Life.events {k k' : Control} (h : Life k k') :
    k'.desired = k.desired ∧ ∃ new, k'.events = k.events ++ new ∧ (.stopped ∈ new → k.desired ≠ .connected) ∧
      (k'.state = .stopped → .stopped ∈ new ∨ k.state = .stopped ∧ .attempting ∉ new) := by
  cases h with
  | soft h =>
    obtain ⟨new, h1, h2⟩ := h.events
    refine ⟨h.wants, new, h1, fun hx => absurd hx (ends_not h2).2.1, fun hs => .inr ⟨?_, (ends_not h2).2.2⟩⟩
    rcases h.state with h | ⟨_, h | h⟩
    · rw [← h]; exact hs
    · rw [hs] at h; cases h
    · rw [hs] at h; cases h
  | attempt _ h1 h2 _ _ _ h =>
    refine ⟨h2.trans h1.symm, ?_⟩
    rcases h with ⟨h, hs⟩ | ⟨e, h, hs⟩
    · exact ⟨_, h, by simp, fun hx => by rw [hs] at hx; cases hx⟩
    · exact ⟨_, h, by simp, fun hx => by rw [hs] at hx; cases hx⟩
  | lost new h1 h2 h3 h4 _ hs =>
    exact ⟨h2.trans h1.symm, new, h3, fun hx => absurd hx (ends_not h4).2.1, fun hx => by rw [hs] at hx; cases hx⟩
  | stopped new h1 h2 h3 h4 h5 =>
    exact ⟨h2, new ++ [.stopped], by rw [h3, List.append_assoc], fun _ => h1, fun _ => .inl (by simp)⟩
  | opened h0 h1 h2 _ h3 hs =>
    exact ⟨h2.trans h1.symm, [], by rw [h3]; simp, by simp, fun hx => by rw [hs] at hx; cases hx⟩
  | closing new _ h2 h3 h4 hs =>
    exact ⟨h2, new, h3, fun hx => absurd hx (ends_not h4).2.1, fun hx => by rw [hs] at hx; cases hx⟩
  | connected new _ h2 h3 h4 hs =>
    refine ⟨h2, new ++ [.success], by rw [h3, List.append_assoc], fun hx => ?_, fun hx => ?_⟩
    · exact absurd hx (by simp [(ends_not h4).2.1])
    · rcases hs with hs | hs | hs <;> rw [hs] at hx <;> cases hx
  | terminated new _ h1 h2 h3 h4 hs =>
    exact ⟨h2.trans h1.symm, new, h3, fun hx => absurd hx (ends_not h4).2.1, fun hx => by rw [hs] at hx; cases hx⟩

/-- What `connect()` leaves of an earlier connection. -/
theorem resetConnection_held {c : Client} (h : EventInv c.ctl) : Held c.resetConnection.ctl := by
  have shut : ∀ k : Control, k.state.open = true → k.slot = true → Held (k.shutdownChannel .connectionReset) := by
    intro k h1 h2
    have : (k.shutdownChannel .connectionReset).state = .channelShutdown := by
      have he : (if Error.connectionReset = .success then Error.other 0 else .connectionReset) = .connectionReset := rfl
      unfold Control.shutdownChannel
      rw [he]
      have h3 : (k.emitFinal .connectionReset).slot = k.slot := (emitFinal_soft k _).slot
      have h4 : (k.emitFinal .connectionReset).state = k.state := by
        unfold Control.emitFinal; split <;> rfl
      dsimp only
      rw [h4, h3, if_neg (by simp [h1]), if_neg (by simp [h2])]
    exact ⟨by simp [this], by simp [this], by simp [this]⟩
  unfold Client.resetConnection
  split
  · rename_i hs; exact shut c.ctl (by rw [hs]; rfl) (h.opened (by rw [hs]; rfl))
  · rename_i hs; exact shut c.ctl (by rw [hs]; rfl) (h.opened (by rw [hs]; rfl))
  · rename_i hs; exact ⟨by simp [hs], by simp [hs], fun _ => rfl⟩
  · rename_i h1 h2 h3; exact ⟨h1, h2, fun hx => absurd hx h3⟩

end Mqtt.Client5

namespace Mqtt.Adapter

open Mqtt.V5 Mqtt.SubscriptionSet
open Mqtt.Client5 (Config Client LEvent Effect Fault Desired Life Held Soft)

/-! ## Folding over the events of the client -/

/-- What one step of the client means for the adapter, when it is attached. -/
theorem react_attached {s : Sys} {c : Client} (ha : s.ad.attached = true) {new : List LEvent}
    (he : c.ctl.events = s.client.ctl.events ++ new) :
    (s.react c).ad = (c.ops.log.drop s.client.ops.log.length).foldl Adapter.onEffect (new.foldl Adapter.onEvent s.ad) := by
  unfold Sys.react
  rw [he, List.drop_left, ha]
  rfl

theorem react_detached {s : Sys} {c : Client} (ha : s.ad.attached = false) {new : List LEvent}
    (he : c.ctl.events = s.client.ctl.events ++ new) :
    (s.react c).ad = (c.ops.log.drop s.client.ops.log.length).foldl Adapter.onEffect (new.foldl Adapter.overlook s.ad) := by
  unfold Sys.react
  rw [he, List.drop_left, ha]
  rfl

theorem fold_keep {α β : Type} {P : α → Prop} {f : α → β → α} (l : List β) (hf : ∀ a x, x ∈ l → P a → P (f a x))
    {a : α} (h : P a) : P (l.foldl f a) := by
  induction l generalizing a with
  | nil => exact h
  | cons x l ih =>
    exact ih (fun a y hy => hf a y (List.mem_cons_of_mem _ hy)) (hf a x (List.mem_cons_self ..) h)

/-- Effects of the client leave the connection part of the adapter alone. -/
theorem onEffect_parts (a : Adapter) (e : Effect) :
    (a.onEffect e).state = a.state ∧ (a.onEffect e).onComplete = a.onComplete ∧ (a.onEffect e).onDisconnect = a.onDisconnect := by
  have hx := onEffect_effected a e
  generalize a.onEffect e = a' at hx ⊢
  cases hx <;> exact ⟨rfl, rfl, rfl⟩

theorem effects_parts (l : List Effect) (a : Adapter) :
    (l.foldl Adapter.onEffect a).state = a.state ∧ (l.foldl Adapter.onEffect a).onComplete = a.onComplete ∧
      (l.foldl Adapter.onEffect a).onDisconnect = a.onDisconnect := by
  induction l generalizing a with
  | nil => exact ⟨rfl, rfl, rfl⟩
  | cons x l ih =>
    obtain ⟨h1, h2, h3⟩ := ih (a.onEffect x)
    obtain ⟨k1, k2, k3⟩ := onEffect_parts a x
    exact ⟨h1.trans k1, h2.trans k2, h3.trans k3⟩

theorem overlook_parts (a : Adapter) (e : LEvent) :
    (a.overlook e).state = a.state ∧ (a.overlook e).onComplete = a.onComplete ∧ (a.overlook e).onDisconnect = a.onDisconnect := by
  unfold Adapter.overlook
  split <;> exact ⟨rfl, rfl, rfl⟩

/-! ## The client is where the adapter wants it -/

/-- The state of the adapter agrees with the state `d` that it has asked the client for. -/
structure Agrees (d : Desired) (a : Adapter) : Prop where
  up : a.state ≠ .stayDisconnected → d = .connected
  first : a.onComplete ≠ none → a.state = .firstConnect
  down : a.onDisconnect ≠ none → d = .stopped

theorem Agrees.of {d : Desired} {a a' : Adapter} (h : Agrees d a) (h1 : a'.state = a.state)
    (h2 : a'.onComplete = a.onComplete) (h3 : a'.onDisconnect = a.onDisconnect) : Agrees d a' :=
  ⟨by rw [h1]; exact h.up, by rw [h1, h2]; exact h.first, by rw [h3]; exact h.down⟩

theorem Agrees.onEvent {d : Desired} {a : Adapter} {e : LEvent} (h : Agrees d a) (he : e = .stopped → d ≠ .connected) :
    Agrees d (a.onEvent e) := by
  unfold Adapter.onEvent
  cases e with
  | attempting => exact h.of rfl rfl rfl
  | success =>
    dsimp only
    split
    · exact h
    · rename_i hs
      refine ⟨fun _ => h.up (by simp [hs]), fun hx => ?_, ?_⟩
      · exact absurd (completeConnect_onComplete _ _) hx
      · show Adapter.onDisconnect (Adapter.completeConnect _ _) ≠ none → _
        rw [completeConnect_onDisconnect]
        exact h.down
    · exact h.of rfl rfl rfl
  | failure e =>
    dsimp only
    split
    · exact h
    · split
      · exact h
      · refine ⟨fun hx => absurd rfl hx, fun hx => ?_, ?_⟩
        · exact absurd (completeConnect_onComplete _ _) hx
        · show Adapter.onDisconnect (Adapter.completeConnect _ _) ≠ none → _
          rw [completeConnect_onDisconnect]
          exact h.down
      · exact h.of rfl rfl rfl
  | disconnection e =>
    dsimp only
    split
    · exact h.of rfl rfl rfl
    · exact h
  | stopped =>
    have hs : a.state = .stayDisconnected := Classical.byContradiction fun hx => he rfl (h.up hx)
    refine ⟨fun hx => absurd rfl hx, fun hx => ?_, fun hx => ?_⟩
    · have : a.onComplete ≠ none := by
        have hx : a.completeDisconnect.onComplete ≠ none := hx
        rwa [completeDisconnect_onComplete] at hx
      have := h.first this
      rw [hs] at this
      cases this
    · exact absurd (completeDisconnect_onDisconnect a) hx

theorem Agrees.react {s : Sys} {c : Client} (h : Agrees s.client.ctl.desired s.ad) (hl : Life s.client.ctl c.ctl) :
    Agrees c.ctl.desired (s.react c).ad := by
  obtain ⟨hd, new, he, hst, _⟩ := hl.events
  rw [hd]
  have key : Agrees s.client.ctl.desired (new.foldl (if s.ad.attached then Adapter.onEvent else Adapter.overlook) s.ad) := by
    refine fold_keep (P := Agrees s.client.ctl.desired) new (fun a x hx ha => ?_) h
    split
    · exact ha.onEvent fun hxs => hst (hxs ▸ hx)
    · obtain ⟨h1, h2, h3⟩ := overlook_parts a x
      exact ha.of h1 h2 h3
  unfold Sys.react
  rw [he, List.drop_left]
  obtain ⟨h1, h2, h3⟩ := effects_parts (c.ops.log.drop s.client.ops.log.length)
    (new.foldl (if s.ad.attached then Adapter.onEvent else Adapter.overlook) s.ad)
  exact key.of h1 h2 h3

theorem halt_state (a : Adapter) : a.halt.state = .stayDisconnected := rfl

theorem halt_onComplete (a : Adapter) (h : a.onComplete ≠ none → a.state = .firstConnect) : a.halt.onComplete = none := by
  unfold Adapter.halt
  split
  · exact completeConnect_onComplete ..
  · rename_i hs
    cases hx : a.onComplete with
    | none => rfl
    | some i => exact absurd (h (by simp [hx])) hs

theorem Agrees.counts {d : Desired} {a a' : Adapter} (h : Agrees d a) (hc : Counts a a') : Agrees d a' :=
  h.of hc.state hc.onComplete hc.onDisconnect

theorem Agrees.ran {s s' : Sys} {t : Task} (h : Agrees s.client.ctl.desired s.ad) (hran : Ran s t s')
    (hg : s'.ad.gone = false) : Agrees s'.client.ctl.desired s'.ad := by
  cases hran with
  | attach => exact (h.of (a' := { s.ad with attached := true }) rfl rfl rfl).counts (releaseListener_counts _)
  | detach => exact (h.of (a' := { s.ad with attached := false }) rfl rfl rfl).counts (releaseInternal_counts _)
  | connect i o =>
    refine Agrees.counts ?_ (releaseInternal_counts _)
    by_cases hs : s.ad.state = .stayDisconnected
    · rw [connectTask_start hs]
      refine ⟨fun _ => ?_, fun _ => rfl, fun hx => ?_⟩
      · unfold connectClient
        rw [Client5.setDesired_none]
      · exact absurd (completeDisconnect_onDisconnect s.ad) hx
    · rw [connectTask_refuse hs]
      exact h.of rfl rfl rfl
  | disconnect i =>
    refine Agrees.counts ?_ (releaseInternal_counts _)
    by_cases hs : s.ad.state = .stayDisconnected
    · rw [disconnectTask_idle hs]
      exact h.of rfl rfl rfl
    · have hd : s.client.ctl.desired ≠ .stopped := by rw [h.up hs]; intro hx; cases hx
      rw [disconnectTask_stop hs hd]
      refine ⟨fun hx => absurd (halt_state s.ad) hx, fun hx => absurd (halt_onComplete s.ad h.first) hx, fun _ => ?_⟩
      show (s.client.setDesired .stopped none).ctl.desired = _
      rw [Client5.setDesired_none]
  | submit id s1 hsub =>
    refine Agrees.counts ?_ (releaseInternal_counts _)
    cases hsub with
    | ended op r _ => exact h.of rfl rfl rfl
    | sent op op' set p _ _ _ _ =>
      unfold Sys.submitOp
      refine Agrees.react (s := Sys.mk s.cfg s.client _) (h.of rfl rfl rfl) (.soft (.submitted s.cfg s.client p))
  | destroy => cases hg

/-- What exclusive use means for the adapter. -/
def Drive (s : Sys) : Prop := s.ad.gone = false → Agrees s.client.ctl.desired s.ad

theorem Drive.did {s s' : Sys} {e : Event} (h : Drive s) (he : Enabled s e) (ha : Exclusive s e) (hd : Did s e s') :
    Drive s' := by
  intro hg
  cases hd with
  | refused => exact h hg
  | connect o _ _ => exact (h hg).of rfl rfl rfl
  | disconnect => exact (h hg).of rfl rfl rfl
  | add _ k _ _ =>
    dsimp only at hg ⊢
    unfold Adapter.add at hg ⊢
    split at hg
    · exact (h hg).of rfl rfl rfl
    · exact (h hg).of rfl rfl rfl
  | acquire => exact (h hg).of rfl rfl rfl
  | release =>
    have hc := release_counts s.ad
    exact (h (hc.gone ▸ hg)).counts hc
  | run t ts _ ht hrun =>
    obtain ⟨hg0, hran⟩ := runTask_ran hrun
    exact Agrees.ran (s := { s with ad := { s.ad with tasks := ts } }) ((h hg0).of rfl rfl rfl) hran hg
  | client e c hstep _ =>
    have hg0 : s.ad.gone = false := (react_same s c).gone ▸ hg
    refine (h hg0).react (Client5.step_life hstep he.1 (fun d v hx => ?_) fun hx => ?_)
    · subst hx
      have : s.ad.gone = true := ha
      rw [hg0] at this
      cases this
    · subst hx; exact he.2.elim

theorem exclusive_drive {s : Sys} (h : ReachableIf Exclusive s) : Drive s := by
  refine reachable_induct (P := Drive) (fun cfg c _ _ => ?_) (fun _ _ _ hl he ha hd => hl.did he ha hd) h
  exact fun _ => ⟨fun hx => absurd rfl hx, fun hx => absurd rfl hx, fun hx => absurd rfl hx⟩

/-- With exclusive use no `connect()` is forgotten. -/
theorem exclusive_conBal {s : Sys} (h : ReachableIf Exclusive s) (i : Nat) : conBal i s.ad = 0 := by
  have : Drive s ∧ conBal i s.ad = 0 := by
    refine reachable_induct (P := fun s => Drive s ∧ conBal i s.ad = 0) (fun cfg c _ _ => ⟨fun _ =>
      ⟨fun hx => absurd rfl hx, fun hx => absurd rfl hx, fun hx => absurd rfl hx⟩, rfl⟩)
      (fun s s' e hl he ha hd => ⟨hl.1.did he ha hd, ?_⟩) h
    obtain ⟨hdr, hb⟩ := hl
    rw [← hb]
    cases hd with
    | refused => rfl
    | connect o _ _ =>
      unfold conBal
      show ((tally (Adapter.note _ _) _ : Nat) : Int) + ((s.ad.tasks ++ [Task.connect s.ad.calls o]).countP _ : Nat) + _ -
        (tally (Adapter.note _ _) _ : Nat) = _
      rw [tally_note, tally_note, List.countP_append, countP_one]
      show ((tally s.ad _ + _ : Nat) : Int) + _ + (stored s.ad.onComplete i : Nat) - ((tally s.ad _ + _ : Nat) : Int) = _
      by_cases hi : s.ad.calls = i <;> simp [Note.answersConnect, Note.asksConnect, Task.connects, hi] <;> omega
    | disconnect =>
      unfold conBal Adapter.disconnect
      show ((tally (Adapter.note _ _) _ : Nat) : Int) + ((s.ad.tasks ++ [Task.disconnect s.ad.calls]).countP _ : Nat) + _ -
        (tally (Adapter.note _ _) _ : Nat) = _
      rw [tally_note, tally_note, List.countP_append, countP_one]
      show ((tally s.ad _ + _ : Nat) : Int) + _ + (stored s.ad.onComplete i : Nat) - ((tally s.ad _ + _ : Nat) : Int) = _
      simp [Note.answersConnect, Note.asksConnect, Task.connects]
    | add _ k _ _ => exact conBal_add i s.ad k
    | acquire =>
      unfold Adapter.acquire conBal
      rfl
    | release => exact conBal_counts i (release_counts s.ad) (release_tasks s.ad)
    | run t ts _ ht hrun =>
      obtain ⟨hg0, hran⟩ := runTask_ran hrun
      have h1 := conBal_ran hran i
      have h2 := conBal_pop i ht
      rw [h1, h2]
      have hz : (if s.ad.state = .stayDisconnected ∧ t.isConnect = true then stored s.ad.onComplete i else 0) = 0 := by
        split
        · rename_i hx
          have : s.ad.onComplete = none := Classical.byContradiction fun hc => by
            have := (hdr hg0).first hc
            rw [hx.1] at this
            cases this
          rw [this]
          rfl
        · rfl
      dsimp only
      rw [hz]
      omega
    | client e c hstep _ => exact conBal_react i s c
  exact this.2

end Mqtt.Adapter
