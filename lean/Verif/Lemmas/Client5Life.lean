import Verif.Lemmas.Client5Faults

/-!
The order of lifecycle events of the MQTT 5 client.
-/
namespace Mqtt.Client5

open Mqtt.V5

theorem follow_append (b : Bool) (l l' : List LEvent) :
    follow b (l ++ l') = l'.foldl (followOne b) (follow b l) := by
  rw [follow, List.foldl_append]; rfl

/-- What the events so far have to look like. -/
def Fits (k : Control) : Prop :=
  match k.lifecycle with
  | .none => ∃ b, follow true k.events = some (.idle b)
  | .connecting => follow true k.events = some .attempting
  | .connected => follow true k.events = some .connected

structure EventInv (k : Control) : Prop where
  fits : Fits k
  rest : (k.state = .stopped ∨ k.state = .pendingReconnect) → k.lifecycle = .none
  early : (k.state = .connecting ∨ k.state = .mqttConnect) → k.lifecycle = .none →
    follow true k.events = some (.idle true)
  opened : k.state.open = true → k.slot = true
  slot : k.slot = true → k.state.open = true ∨ k.state = .channelShutdown
  up : k.state = .connected → k.lifecycle = .connected

theorem event_new (cfg : Config) : EventInv (Client.new cfg).ctl := by
  constructor <;> simp [Client.new, Fits, follow, State.open]

theorem emitFinal_none {k : Control} (h : k.lifecycle = .none) (e : Error) : k.emitFinal e = k := by
  simp [Control.emitFinal, h]

theorem emitFinal_fits {k : Control} (h : Fits k) (e : Error) : ∃ b, follow true (k.emitFinal e).events = some (.idle b) := by
  unfold Fits at h
  unfold Control.emitFinal
  split
  · rename_i hl; rw [hl] at h; exact h
  · rename_i hl; rw [hl] at h
    simp only at h ⊢
    rw [follow_append, h]
    exact ⟨_, rfl⟩
  · rename_i hl; rw [hl] at h
    simp only at h ⊢
    rw [follow_append, h]
    exact ⟨_, rfl⟩

theorem Fits.emit {k : Control} (h : Fits k) (e : Error) : Fits (k.emitFinal e) := by
  unfold Fits
  rw [emitFinal_lifecycle]
  exact emitFinal_fits h e

theorem shutdownChannel_eq (k : Control) (e : Error) :
    ∃ e', k.shutdownChannel e = if k.state.open && k.slot then { k.emitFinal e' with state := .channelShutdown }
      else k.emitFinal e' := by
  refine ⟨if e = .success then .other 0 else e, ?_⟩
  unfold Control.shutdownChannel
  generalize (if e = .success then .other 0 else e) = e'
  simp only [emitFinal_state, emitFinal_slot]
  cases k.state.open <;> cases k.slot <;> rfl

theorem shutdown_none {k : Control} (h : k.lifecycle = .none) (ho : k.state.open = false) (e : Error) :
    k.shutdownChannel e = k := by
  obtain ⟨e', h1⟩ := shutdownChannel_eq k e
  rw [h1, ho, emitFinal_none h]; rfl

theorem completeAll_none {k : Control} (h : k.lifecycle = .none) (ho : k.state.open = false) (ops : List Op) (e : Error) :
    k.onCompleteAll ops e = k := by
  induction ops with
  | nil => rfl
  | cons op ops ih =>
    have h1 : k.onComplete op.packet e = k := by
      unfold Control.onComplete
      split
      · exact shutdown_none h ho _
      · rfl
    simp only [Control.onCompleteAll, List.foldl_cons, h1] at ih ⊢
    exact ih

/-- Whatever is completed, no event follows when none is due. -/
theorem completeAll_events {k : Control} (h : k.lifecycle = .none) (ops : List Op) (e : Error) :
    (k.onCompleteAll ops e).events = k.events ∧ (k.onCompleteAll ops e).lifecycle = .none ∧
      (k.onCompleteAll ops e).slot = k.slot := by
  induction ops generalizing k with
  | nil => exact ⟨rfl, h, rfl⟩
  | cons op ops ih =>
    have h1 : (k.onComplete op.packet e).events = k.events ∧ (k.onComplete op.packet e).lifecycle = .none ∧
        (k.onComplete op.packet e).slot = k.slot := by
      unfold Control.onComplete
      split
      · generalize (if e ≠ .success then e else k.cleanError) = e1
        obtain ⟨e', h1⟩ := shutdownChannel_eq k e1
        rw [h1, emitFinal_none h]
        split <;> exact ⟨rfl, h, rfl⟩
      · exact ⟨rfl, h, rfl⟩
    have h2 := ih h1.2.1
    simp only [Control.onCompleteAll, List.foldl_cons] at h2 ⊢
    exact ⟨h2.1.trans h1.1, h2.2.1, h2.2.2.trans h1.2.2⟩

theorem onCompleteAll_plain {k : Control} {ops : List Op} (h : ∀ op ∈ ops, isDisconnect op.packet = false) (e : Error) :
    k.onCompleteAll ops e = k := by
  induction ops with
  | nil => rfl
  | cons op ops ih =>
    have h1 : k.onComplete op.packet e = k := by
      simp [Control.onComplete, h op (by simp)]
    simp only [Control.onCompleteAll, List.foldl_cons, h1] at ih ⊢
    exact ih fun o ho => h o (by simp [ho])

theorem EventInv.shut {k : Control} (h : EventInv k) (hs : k.state = .connecting → k.slot = true) (e : Error) :
    EventInv (k.shutdownChannel e) := by
  obtain ⟨e', h1⟩ := shutdownChannel_eq k e
  rw [h1]
  by_cases ho : k.state.open = true
  · rw [ho, h.opened ho]
    refine ⟨?_, by simp, by simp, by simp [State.open], by simp, by simp⟩
    have := h.fits.emit e'
    exact this
  · have ho : k.state.open = false := by simpa using ho
    rw [ho]
    have hne : k.state ≠ .connecting := fun hx => by
      rcases h.slot (hs hx) with h2 | h2
      · rw [h2] at ho; cases ho
      · rw [h2] at hx; cases hx
    refine ⟨h.fits.emit e', fun _ => emitFinal_lifecycle .., ?_, ?_, ?_, ?_⟩
    · intro hx
      exfalso
      rw [if_neg (by simp), emitFinal_state] at hx
      rcases hx with hx | hx
      · exact hne hx
      · rw [hx] at ho; cases ho
    · rw [if_neg (by simp), emitFinal_state, emitFinal_slot]; exact h.opened
    · rw [if_neg (by simp), emitFinal_state, emitFinal_slot]; exact h.slot
    · rw [if_neg (by simp), emitFinal_state]
      intro hx
      rw [hx] at ho; cases ho

theorem event_kmove {k k' : Control} (hb : k.state = .connecting → k.lifecycle ≠ .connected) (h : EventInv k)
    (m : KMove k k') : EventInv k' := by
  cases m with
  | shutdown e hs => exact h.shut hs e
  | giveUp =>
    by_cases hst : k.state = .connecting
    · have : k.shutdownChannel .userStop = k.emitFinal .userStop := by
        simp [Control.shutdownChannel, hst, State.open]
      rw [this]
      refine ⟨h.fits.emit _, fun _ => emitFinal_lifecycle .., ?_, ?_, ?_, by rw [emitFinal_state, hst]; simp⟩
      · intro _ _
        have hf := h.fits
        unfold Fits at hf
        unfold Control.emitFinal
        split
        · rename_i hl; exact h.early (.inl hst) hl
        · rename_i hl
          rw [hl] at hf
          simp only at hf ⊢
          rw [follow_append, hf]
          rfl
        · rename_i hl
          exact absurd hl (hb hst)
      · rw [emitFinal_state, emitFinal_slot]; exact h.opened
      · rw [emitFinal_state, emitFinal_slot]; exact h.slot
    · exact h.shut (fun hx => absurd hx hst) _
  | emitShutdown e e' ho =>
    obtain ⟨e2, h1⟩ := shutdownChannel_eq (k.emitFinal e) e'
    rw [h1, emitFinal_state, emitFinal_slot, ho, h.opened ho, emitFinal_none (emitFinal_lifecycle ..)]
    exact ⟨h.fits.emit e, by simp, by simp, by simp [State.open], by simp, by simp⟩
  | emitClean e e' hst =>
    refine ⟨h.fits.emit e, by simp, by simp, fun _ => ?_, by simp [State.open], by simp⟩
    simp only [emitFinal_slot]
    exact h.opened (by simp [hst, State.open])
  | misc _ h1 h2 h3 h4 h5 h6 h7 =>
    have hf := h.fits
    exact ⟨by unfold Fits at hf ⊢; rw [h3, h7]; exact hf, by rw [h1, h3]; exact h.rest, by rw [h1, h3, h7]; exact h.early,
      by rw [h1, h4]; exact h.opened, by rw [h1, h4]; exact h.slot, by rw [h1, h3]; exact h.up⟩
  | desired d => exact ⟨h.fits, h.rest, h.early, h.opened, h.slot, h.up⟩
  | connecting hst hd =>
    have hl := h.rest hst
    have hf := h.fits
    unfold Fits at hf
    rw [hl] at hf
    obtain ⟨b, hf⟩ := hf
    refine ⟨?_, by simp, by simp, by simp [State.open], ?_, by simp⟩
    · unfold Fits
      simp only
      rw [follow_append, hf]
      rfl
    · intro hs
      rcases h.slot hs with h1 | h1 <;> rcases hst with hst | hst <;> simp [hst, State.open] at h1
  | kickOff e hst hl =>
    refine ⟨h.fits.emit e, fun _ => emitFinal_lifecycle .., by simp, by simp [State.open], ?_, by simp⟩
    intro hs
    simp only [emitFinal_slot] at hs
    rcases h.slot hs with h1 | h1 <;> simp [hst, State.open] at h1
  | refuse hst hd => exact ⟨h.fits, by simp, by simp, by simp [State.open], by simp, by simp⟩
  | opened hst hd =>
    exact ⟨h.fits, by simp, fun _ => h.early (.inl hst), by simp, by simp [State.open], by simp⟩
  | settings s hst => exact ⟨h.fits, h.rest, h.early, h.opened, h.slot, h.up⟩
  | clean e hst =>
    refine ⟨h.fits, by simp, by simp, fun _ => ?_, by simp [State.open], by simp⟩
    exact h.opened (by rcases hst with h | h <;> simp [h, State.open])

theorem event_move {cfg : Config} {c c' : Client} (hv : LiveInv c) (hb : LifeInv c) (h : EventInv c.ctl)
    (m : Move cfg c c') : EventInv c'.ctl := by
  cases m with
  | control k hk => exact event_kmove (fun hx => hb.before (.inl hx)) h hk
  | disconnection e st hst =>
    have hl : ({ c.ctl.emitFinal (if e = .success then .hangup else e) with slot := false, channel := false } :
        Control).lifecycle = .none := emitFinal_lifecycle ..
    obtain ⟨h1, h2, h3⟩ := completeAll_events hl (c.ops.lostOnDisconnection cfg) .offlinePolicy
    obtain ⟨b, hf⟩ := emitFinal_fits h.fits (if e = .success then .hangup else e)
    have hev : (c.ctl.channelGone (c.ops.lostOnDisconnection cfg) e).events =
        (c.ctl.emitFinal (if e = .success then .hangup else e)).events := h1
    have hlf : (c.ctl.channelGone (c.ops.lostOnDisconnection cfg) e).lifecycle = .none := h2
    have hsl : (c.ctl.channelGone (c.ops.lostOnDisconnection cfg) e).slot = false := h3
    constructor
    · unfold Fits
      simp only [hlf, hev]
      exact ⟨b, hf⟩
    · intro _; exact hlf
    · rcases hst with rfl | rfl <;> simp
    · rcases hst with rfl | rfl <;> simp [State.open]
    · intro hs; rw [hsl] at hs; cases hs
    · rcases hst with rfl | rfl <;> simp
  | connection settings now hst =>
    have hlost : ∀ op ∈ (if settings.rejoinedSession then [] else lose cfg.offline c.ops.unacked),
        isDisconnect op.packet = false := by
      intro op ho
      split at ho
      · cases ho
      · have := hv.acked op (List.mem_filter.1 ho).1
        revert this
        cases op.packet <;> simp [requiresAck, isDisconnect]
    have hslot := h.opened (by simp [hst, State.open])
    have hctl : (({ c with ctl := { c.ctl with settings := settings } } : Client).toConnected cfg now).ctl =
        { ({ c.ctl with
            settings := settings, state := .connected, hasConnected := true, pingTimeout := 0 } : Control).resetPing now with
          lifecycle := .connected, events := c.ctl.events ++ [.success] } := by
      simp only [Client.toConnected]
      rw [onCompleteAll_plain hlost]
      rfl
    rw [hctl]
    refine ⟨?_, by simp, by simp, fun _ => hslot, fun _ => .inl (by simp [State.open]), fun _ => rfl⟩
    unfold Fits
    simp only
    rw [follow_append]
    have hf := h.fits
    unfold Fits at hf
    have hl := hb.before (.inr hst)
    cases hx : c.ctl.lifecycle with
    | none => rw [h.early (.inr hst) hx]; rfl
    | connecting => rw [hx] at hf; simp only at hf; rw [hf]; rfl
    | connected => exact absurd hx hl
  | reset hst =>
    have hl := h.rest hst
    have hs : c.ctl.slot ≠ true := by
      intro hs
      rcases h.slot hs with h1 | h1 <;> rcases hst with hst | hst <;> simp [hst, State.open] at h1
    have hctl : c.toStopped.ctl = { c.ctl with
        state := .stopped, hasConnected := false, events := c.ctl.events ++ [.stopped] } := by
      simp only [Client.toStopped, Control.emitStopped]
      rw [completeAll_none]
      · exact hl
      · rfl
    rw [hctl]
    refine ⟨?_, fun _ => hl, by simp, by simp [State.open], fun hx => absurd hx hs, by simp⟩
    have hf := h.fits
    unfold Fits at hf ⊢
    rw [hl] at hf
    simp only [hl] at hf ⊢
    obtain ⟨b, hf⟩ := hf
    exact ⟨false, by rw [follow_append, hf]; rfl⟩
  | terminate hst hd =>
    have hl := h.rest (.inl hst)
    have hs : c.ctl.slot ≠ true := by
      intro hs
      rcases h.slot hs with h1 | h1 <;> simp [hst, State.open] at h1
    have hctl : c.toTerminated.ctl = { c.ctl with state := .terminated } := by
      simp only [Client.toTerminated]
      rw [completeAll_none]
      · exact hl
      · rfl
    rw [hctl]
    exact ⟨h.fits, by simp, by simp, by simp [State.open], fun hx => absurd hx hs, by simp⟩
  | _ => exact h

theorem reachable_event {cfg : Config} {c : Client} (h : Reachable cfg c) : EventInv c.ctl :=
  (reachable_inv (P := fun c => SafeInv cfg c ∧ EventInv c.ctl) ⟨reachable_safe .new, event_new cfg⟩
    (fun _ _ ⟨h1, h2⟩ m => ⟨safe_move h1 m, event_move h1.inv.live h1.life h2 m⟩) h).2

end Mqtt.Client5
