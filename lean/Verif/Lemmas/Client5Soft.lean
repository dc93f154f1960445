import Verif.Lemmas.Client5Ping

/-!
What the events of the MQTT 5 client do to its state, to the lifecycle events and to the state asked for.
-/
namespace Mqtt.Client5

open Mqtt.V5

/-- The events that end a connection or an attempt. -/
def LEvent.ends : LEvent → Bool
  | .failure _ => true
  | .disconnection _ => true
  | _ => false

/-- Nothing happens but that a connection is being closed. -/
structure Soft (k k' : Control) : Prop where
  wants : k'.desired = k.desired
  resets : k'.shouldReset = k.shouldReset
  slot : k'.slot = k.slot
  channel : k'.channel = k.channel
  events : ∃ new, k'.events = k.events ++ new ∧ ∀ e ∈ new, e.ends = true
  state : k'.state = k.state ∨ k.state.open = true ∧ (k'.state = .cleanDisconnect ∨ k'.state = .channelShutdown)

theorem Soft.of {k k' : Control} (h1 : k'.desired = k.desired) (h2 : k'.shouldReset = k.shouldReset)
    (h3 : k'.slot = k.slot) (h4 : k'.channel = k.channel) (h5 : k'.events = k.events) (h6 : k'.state = k.state) :
    Soft k k' := ⟨h1, h2, h3, h4, ⟨[], by rw [h5]; simp, by simp⟩, .inl h6⟩

theorem Soft.refl (k : Control) : Soft k k := .of rfl rfl rfl rfl rfl rfl

theorem Soft.trans {a b c : Control} (h : Soft a b) (h' : Soft b c) : Soft a c := by
  obtain ⟨n1, e1, e2⟩ := h.events
  obtain ⟨n2, e3, e4⟩ := h'.events
  refine ⟨h'.wants.trans h.wants, h'.resets.trans h.resets, h'.slot.trans h.slot, h'.channel.trans h.channel,
    ⟨n1 ++ n2, by rw [e3, e1, List.append_assoc], fun e he => (List.mem_append.1 he).elim (e2 e) (e4 e)⟩, ?_⟩
  rcases h'.state with h1 | ⟨h1, h2⟩
  · rw [h1]; exact h.state
  · rcases h.state with h3 | ⟨h3, _⟩
    · exact .inr ⟨h3 ▸ h1, h2⟩
    · exact .inr ⟨h3, h2⟩

theorem emitFinal_soft (k : Control) (e : Error) : Soft k (k.emitFinal e) := by
  unfold Control.emitFinal
  split
  · exact .refl _
  · exact ⟨rfl, rfl, rfl, rfl, ⟨[_], rfl, by simp [LEvent.ends]⟩, .inl rfl⟩
  · exact ⟨rfl, rfl, rfl, rfl, ⟨[_], rfl, by simp [LEvent.ends]⟩, .inl rfl⟩

theorem shutdownChannel_soft (k : Control) (e : Error) : Soft k (k.shutdownChannel e) := by
  unfold Control.shutdownChannel
  generalize (if e = .success then Error.other 0 else e) = e
  have h := emitFinal_soft k e
  dsimp only
  split
  · exact h
  · rename_i ho
    split
    · exact h
    · have ho : k.state.open = true := by simpa using ho
      exact ⟨h.wants, h.resets, h.slot, h.channel, h.events, .inr ⟨ho, .inr rfl⟩⟩

theorem onComplete_soft (k : Control) (p : Outgoing) (e : Error) : Soft k (k.onComplete p e) := by
  unfold Control.onComplete
  split
  · exact shutdownChannel_soft ..
  · exact .refl _

theorem onCompleteAll_soft (k : Control) (ops : List Op) (e : Error) : Soft k (k.onCompleteAll ops e) := by
  unfold Control.onCompleteAll
  induction ops generalizing k with
  | nil => exact .refl _
  | cons op ops ih => exact (onComplete_soft k op.packet e).trans (ih _)

theorem onPingreqSend_soft (cfg : Config) (k : Control) (t : Nat) : Soft k (k.onPingreqSend cfg t) := by
  unfold Control.onPingreqSend
  generalize pingDeadline cfg.pingTimeoutMs k.settings.serverKeepAlive t = d
  exact .of rfl rfl rfl rfl rfl rfl

theorem resetPing_soft (k : Control) (t : Nat) : Soft k (k.resetPing t) := by
  unfold Control.resetPing
  generalize pingDue k.settings.serverKeepAlive t = d
  exact .of rfl rfl rfl rfl rfl rfl

theorem takeNext_soft {cfg : Config} {env : Env} (q : List Op) (c : Client) :
    Soft c.ctl (c.takeNext cfg env q).1.ctl := by
  induction q generalizing c with
  | nil => exact .refl _
  | cons op rest ih =>
    rw [Client.takeNext]
    split
    · exact .refl _
    · simp only
      split
      · exact .refl _
      · rename_i e _
        split
        · exact onComplete_soft ..
        · refine Soft.trans ?_ (ih _)
          exact onComplete_soft c.ctl op.packet e

theorem load_soft {cfg : Config} {env : Env} {c c' : Client} {e : Option Error}
    (h : c.load cfg env = .ok (c', e)) : Soft c.ctl c'.ctl := by
  unfold Client.load at h
  split at h
  · cases h; exact .refl _
  · have h1 := takeNext_soft (cfg := cfg) (env := env) c.ops.queued c
    rcases hx : c.takeNext cfg env c.ops.queued with ⟨c2, r⟩
    rw [hx] at h h1
    cases r with
    | nothing => cases h; exact h1
    | failed => cases h; exact h1
    | next op =>
      simp only at h
      split at h
      · cases h
      · cases h; exact h1

theorem finish_soft {cfg : Config} {c c' : Client} {op : Op} {now t : Nat} (h : c.finish cfg op now t = .ok c') :
    Soft c.ctl c'.ctl := by
  unfold Client.finish at h
  split at h
  · cases h
  · by_cases hp : op.packet = .pingreq
    · rw [if_pos hp] at h
      have h1 := onPingreqSend_soft cfg c.ctl t
      generalize c.ctl.onPingreqSend cfg t = k at h h1
      cases h
      exact h1
    · rw [if_neg hp] at h
      cases h
      exact .refl _

theorem serviceLoop_soft {cfg : Config} {env : Env} {fuel k : Nat} {buf : Buf} {c : Client}
    {r : Client × Buf × Option Error} (h : c.serviceLoop cfg env fuel k buf = .ok r) : Soft c.ctl r.1.ctl := by
  induction fuel generalizing c k buf with
  | zero => simp only [Client.serviceLoop] at h; cases h; exact .refl _
  | succ fuel ih =>
    rw [Client.serviceLoop] at h
    split at h
    · cases h
    · rename_i c1 e hl; cases h; exact load_soft hl
    · rename_i c1 hl
      have h1 := load_soft hl
      split at h
      · cases h; exact h1
      · rename_i op hop
        split at h
        · cases h; exact h1
        · rename_i buf' enc _
          split at h
          · cases h
          · rename_i c2 hf
            have h2 : Soft c1.ctl c2.ctl :=
              finish_soft (c := { c1 with ops := { c1.ops with encoder := enc } }) hf
            have h3 := h1.trans h2
            split at h
            · exact h3.trans (ih h)
            · cases h; exact h3

theorem serviceOps_soft {cfg : Config} {env : Env} {c : Client} {r : Client × Option Error}
    (h : c.serviceOps cfg env = .ok r) : Soft c.ctl r.1.ctl := by
  unfold Client.serviceOps at h
  split at h
  · cases h; exact .refl _
  · split at h
    · cases h; exact .refl _
    · split at h
      · cases h
      · rename_i hl; cases h; exact serviceLoop_soft hl
      · rename_i hl
        have h1 := serviceLoop_soft hl
        split at h
        · cases h; exact h1
        · split at h
          · cases h; exact h1
          · cases h; exact h1

theorem afterService_soft (r : Client × Option Error) : Soft r.1.ctl (Client.afterService r).1.ctl := by
  unfold Client.afterService
  split
  · exact .refl _
  · exact shutdownChannel_soft ..

theorem clientTimeouts_ctl {now : Nat} {c c' : Client} (h : c.checkTimeouts now = .ok c') : c'.ctl = c.ctl := by
  unfold Client.checkTimeouts at h
  split at h
  · cases h
  · cases h; rfl

theorem shutdownWith_soft (c : Client) (e : Error) (v : DisconnectView) : Soft c.ctl (c.shutdownWith e v).ctl := by
  unfold Client.shutdownWith
  split
  · rename_i h
    refine ⟨rfl, rfl, rfl, rfl, ⟨[], by simp, by simp⟩, .inr ⟨?_, .inl rfl⟩⟩
    rcases h with h | h <;> rw [h] <;> rfl
  · exact shutdownChannel_soft ..

theorem shutdownClean_soft (c : Client) (e : Error) (r : Nat) : Soft c.ctl (c.shutdownClean e r).ctl := by
  unfold Client.shutdownClean
  split
  · exact shutdownChannel_soft ..
  · exact shutdownWith_soft ..

theorem handleAck_soft {c c' : Client} {id : Nat} {a : Received} (h : c.handleAck id a = .ok c') :
    Soft c.ctl c'.ctl := by
  unfold Client.handleAck at h
  split at h
  · cases h; exact .refl _
  · split at h
    · cases h
    · rename_i op rest _
      simp only at h
      split at h
      · cases h
      · cases h; exact onComplete_soft ..
      · have h2 : Soft c.ctl (({ c with ops := { c.ops with unacked := rest, table := c.ops.table.del id } } :
            Client).complete op .protocolError none).ctl := onComplete_soft ..
        split at h
        · cases h; exact h2.trans (shutdownClean_soft ..)
        · cases h; exact h2.trans (shutdownChannel_soft ..)

theorem onPacketConnected_soft {c c' : Client} {p : Received} {a : Bool} (h : c.onPacketConnected p a = .ok c') :
    Soft c.ctl c'.ctl := by
  unfold Client.onPacketConnected at h
  cases p with
  | pingresp => cases h; exact .of rfl rfl rfl rfl rfl rfl
  | disconnect v =>
    simp only at h
    split at h
    · cases h
    · rename_i k hk
      cases h
      unfold Control.emitFinalDisconnect at hk
      split at hk
      · cases hk
      · cases hk
        exact (emitFinal_soft ..).trans (shutdownChannel_soft ..)
  | suback v => exact handleAck_soft h
  | unsuback v => exact handleAck_soft h
  | publish v => cases h; exact .refl _
  | puback v =>
    have h1 : (c.onPuback v.packetId).handleAck v.packetId (.puback v) = .ok c' := h
    exact handleAck_soft (c := c.onPuback v.packetId) h1
  | connack v => cases h; exact .refl _

theorem submit_ctl (cfg : Config) (c : Client) (p : Outgoing) (t : Nat) (x : Bool) :
    (c.submit cfg p t x).ctl = c.ctl := by
  unfold Client.submit; split
  · rfl
  · split <;> rfl

/-- What an event of the client that is not a call of the user does. -/
inductive Life (k k' : Control) : Prop where
  | soft : Soft k k' → Life k k'
  /-- An attempt to connect begins, and may fail at once. -/
  | attempt : (k.state = .stopped ∨ k.state = .pendingReconnect) → k.desired = .connected → k'.desired = .connected →
      k'.shouldReset = false → k'.slot = k.slot → k'.channel = k.channel →
      (k'.events = k.events ++ [.attempting] ∧ k'.state = .connecting ∨
        ∃ e, k'.events = k.events ++ [.attempting, .failure e] ∧ k'.state = .pendingReconnect) → Life k k'
  /-- A connection or an attempt is over. -/
  | lost (new : List LEvent) : k.desired = .connected → k'.desired = .connected → k'.events = k.events ++ new →
      (∀ e ∈ new, e.ends = true) → k'.shouldReset = k.shouldReset → k'.state = .pendingReconnect →
      (k.state = .connecting ∨ k.channel = true) → Life k k'
  | stopped (new : List LEvent) : k.desired ≠ .connected → k'.desired = k.desired →
      k'.events = k.events ++ new ++ [.stopped] → (∀ e ∈ new, e.ends = true) → k'.state = .stopped →
      (k.state = .pendingReconnect ∨ k.state = .connecting ∨ k.channel = true) → Life k k'
  /-- A channel has been made. -/
  | opened : k.state = .connecting → k.desired = .connected → k'.desired = .connected → k.shouldReset = false →
      k'.events = k.events → k'.state = .mqttConnect → Life k k'
  /-- A channel has been made and is closed at once. -/
  | closing (new : List LEvent) : k.state = .connecting → k'.desired = k.desired → k'.events = k.events ++ new →
      (∀ e ∈ new, e.ends = true) → k'.state = .channelShutdown → Life k k'
  | connected (new : List LEvent) : k.state = .mqttConnect → k'.desired = k.desired →
      k'.events = k.events ++ new ++ [.success] → (∀ e ∈ new, e.ends = true) →
      (k'.state = .connected ∨ k'.state = .cleanDisconnect ∨ k'.state = .channelShutdown) → Life k k'
  | terminated (new : List LEvent) : k.state = .stopped → k.desired = .terminated → k'.desired = .terminated →
      k'.events = k.events ++ new → (∀ e ∈ new, e.ends = true) → k'.state = .terminated → Life k k'

theorem toConnecting_life (c : Client) (e : Option Error)
    (hs : c.ctl.state = .stopped ∨ c.ctl.state = .pendingReconnect) (hd : c.ctl.desired = .connected) :
    Life c.ctl (c.toConnecting e).ctl := by
  unfold Client.toConnecting
  cases e with
  | none => exact .attempt hs hd hd rfl rfl rfl (.inl ⟨rfl, rfl⟩)
  | some e => exact .attempt hs hd hd rfl rfl rfl (.inr ⟨e, by simp [Control.emitFinal], rfl⟩)

theorem toStopped_life (c : Client) (hs : c.ctl.state = .pendingReconnect ∨ c.ctl.state = .connecting ∨ c.ctl.channel = true)
    (hd : c.ctl.desired ≠ .connected) : Life c.ctl c.toStopped.ctl := by
  have h := onCompleteAll_soft ({ c.ctl with state := .stopped } : Control)
    (c.ops.queued ++ c.ops.writing ++ c.ops.unacked) .userStop
  obtain ⟨new, h1, h2⟩ := h.events
  refine .stopped new hd h.wants ?_ h2 ?_ hs
  · unfold Client.toStopped Control.emitStopped
    dsimp only
    rw [h1]
  · rcases h.state with h3 | ⟨h3, _⟩
    · exact h3
    · cases h3

theorem channelGone_soft (k : Control) (lost : List Op) (e : Error) :
    (k.channelGone lost e).desired = k.desired ∧ (k.channelGone lost e).shouldReset = k.shouldReset ∧
      ∃ new, (k.channelGone lost e).events = k.events ++ new ∧ ∀ x ∈ new, x.ends = true := by
  unfold Control.channelGone
  generalize (if e = .success then Error.hangup else e) = e
  have h1 := emitFinal_soft k e
  have h2 := onCompleteAll_soft ({ k.emitFinal e with slot := false, channel := false } : Control) lost .offlinePolicy
  obtain ⟨n1, a1, a2⟩ := h1.events
  obtain ⟨n2, b1, b2⟩ := h2.events
  refine ⟨h2.wants.trans h1.wants, h2.resets.trans h1.resets, n1 ++ n2, ?_,
    fun x hx => (List.mem_append.1 hx).elim (a2 x) (b2 x)⟩
  rw [b1, ← List.append_assoc, ← a1]

theorem stop_life {k : Control} {k' : Control} (s : OpState) {new : List LEvent} (h1 : k'.desired = k.desired)
    (h3 : k'.events = k.events ++ new) (h4 : ∀ e ∈ new, e.ends = true) (hd : k'.desired ≠ .connected)
    (hs : k.state = .connecting ∨ k.channel = true) : Life k (Client.toStopped ⟨s, k'⟩).ctl := by
  have h := onCompleteAll_soft ({ k' with state := .stopped } : Control) (s.queued ++ s.writing ++ s.unacked) .userStop
  have hx : (Client.toStopped ⟨s, k'⟩).ctl = { ({ k' with state := .stopped } : Control).onCompleteAll
      (s.queued ++ s.writing ++ s.unacked) .userStop with
      hasConnected := false
      events := (({ k' with state := .stopped } : Control).onCompleteAll
        (s.queued ++ s.writing ++ s.unacked) .userStop).events ++ [.stopped] } := rfl
  rw [hx]
  clear hx
  generalize ({ k' with state := .stopped } : Control).onCompleteAll (s.queued ++ s.writing ++ s.unacked) .userStop =
    k2 at h
  obtain ⟨n2, b1, b2⟩ := h.events
  have hw : k2.desired = k.desired := h.wants.trans h1
  refine .stopped (new ++ n2) (h1 ▸ hd) hw ?_ (fun x hx => (List.mem_append.1 hx).elim (h4 x) (b2 x)) ?_ (.inr hs)
  · dsimp only
    rw [b1]
    dsimp only
    rw [h3]
    simp only [List.append_assoc]
  · rcases h.state with h5 | ⟨h5, _⟩
    · exact h5
    · cases h5

theorem shutdownFinal_life (cfg : Config) (c : Client) (e : Error)
    (hs : c.ctl.state = .connecting ∨ c.ctl.channel = true) : Life c.ctl (c.shutdownFinal cfg e).ctl := by
  obtain ⟨h1, h2, new, h3, h4⟩ := channelGone_soft c.ctl (c.ops.lostOnDisconnection cfg) e
  unfold Client.shutdownFinal
  dsimp only
  generalize c.ctl.channelGone (c.ops.lostOnDisconnection cfg) e = k at h1 h2 h3
  generalize c.ops.onDisconnection cfg = s
  split
  · rename_i hd
    exact .lost new (h1 ▸ hd) hd h3 h4 h2 rfl hs
  · rename_i hd
    exact stop_life s h1 h3 h4 hd hs

theorem toTerminated_life (c : Client) (hs : c.ctl.state = .stopped) (hd : c.ctl.desired = .terminated) :
    Life c.ctl c.toTerminated.ctl := by
  have h := onCompleteAll_soft ({ c.ctl with state := .terminated } : Control)
    (c.ops.queued ++ c.ops.writing ++ c.ops.unacked) .terminated
  obtain ⟨new, h1, h2⟩ := h.events
  refine .terminated new hs hd (h.wants.trans hd) h1 h2 ?_
  rcases h.state with h3 | ⟨h3, _⟩
  · exact h3
  · cases h3

theorem toConnected_life (cfg : Config) (c : Client) (k : Control) (now : Nat) (hs : c.ctl.state = .mqttConnect)
    (hk : Soft c.ctl k) :
    Life c.ctl (({ c with ctl := k } : Client).toConnected cfg now).ctl := by
  have h := onCompleteAll_soft ({ k with state := .connected } : Control)
    (if k.settings.rejoinedSession then [] else lose cfg.offline c.ops.unacked) .offlinePolicy
  obtain ⟨n1, a1, a2⟩ := hk.events
  obtain ⟨n2, b1, b2⟩ := h.events
  obtain ⟨t, h4⟩ : ∃ t, (({ c with ctl := k } : Client).toConnected cfg now).ctl =
      { ({ k with state := .connected } : Control).onCompleteAll
        (if k.settings.rejoinedSession then [] else lose cfg.offline c.ops.unacked) .offlinePolicy with
          hasConnected := true, pingTimeout := 0, nextPing := t, lifecycle := .connected
          events := (({ k with state := .connected } : Control).onCompleteAll
            (if k.settings.rejoinedSession then [] else lose cfg.offline c.ops.unacked) .offlinePolicy).events ++
              [.success] } := by
    unfold Client.toConnected Control.resetPing
    dsimp only
    generalize pingDue _ now = t
    exact ⟨t, rfl⟩
  rw [h4]
  refine .connected (n1 ++ n2) hs (h.wants.trans hk.wants) ?_
    (fun x hx => (List.mem_append.1 hx).elim (a2 x) (b2 x)) ?_
  · dsimp only
    rw [b1]
    dsimp only
    rw [a1]
    simp only [List.append_assoc]
  · dsimp only
    rcases h.state with h6 | ⟨_, h6 | h6⟩
    · exact .inl h6
    · exact .inr (.inl h6)
    · exact .inr (.inr h6)

theorem service_life {cfg : Config} {env : Env} {c c' : Client} (h : c.service cfg env = .ok c') :
    Life c.ctl c'.ctl := by
  unfold Client.service at h
  split at h
  · rename_i h1
    split at h
    · rename_i h2; cases h; exact toConnecting_life _ _ (.inl h1) h2
    · rename_i h2; cases h; exact toTerminated_life _ h1 h2
    · cases h; exact .soft (.refl _)
  · unfold Client.serviceMqttConnect at h
    split at h
    · cases h; exact .soft ((emitFinal_soft ..).trans (shutdownChannel_soft ..))
    · split at h
      · cases h; exact .soft ((emitFinal_soft ..).trans (shutdownChannel_soft ..))
      · split at h
        · cases h
        · rename_i hr
          cases h
          exact .soft ((serviceOps_soft hr).trans (afterService_soft _))
  · unfold Client.serviceConnected at h
    split at h
    · cases h; exact .soft ((emitFinal_soft ..).trans (shutdownChannel_soft ..))
    · split at h
      · cases h
        have h1 := shutdownClean_soft ({ c with ctl := c.ctl.emitFinal .pingTimeout } : Client) .pingTimeout 141
        exact .soft ((emitFinal_soft c.ctl .pingTimeout).trans h1)
      · simp only at h
        have h0 : Soft c.ctl (if env.now ≥ c.ctl.nextPing then c.queuePing env.queueNow else c).ctl := by
          split
          · exact resetPing_soft c.ctl env.queueNow
          · exact .refl _
        generalize (if env.now ≥ c.ctl.nextPing then c.queuePing env.queueNow else c) = c0 at h h0
        split at h
        · cases h
        · rename_i c1 hc1
          split at h
          · cases h
          · rename_i r hr
            cases h
            have h2 := serviceOps_soft hr
            rw [clientTimeouts_ctl hc1] at h2
            exact .soft ((h0.trans h2).trans (afterService_soft _))
  · unfold Client.serviceCleanDisconnect at h
    split at h
    · cases h
    · rename_i r hr
      have key := (serviceOps_soft hr).trans (afterService_soft _)
      rcases hx : Client.afterService r with ⟨c1, b⟩
      rw [hx] at h key
      cases b
      · cases h; exact .soft key
      · simp only at h
        rw [clientTimeouts_ctl h]
        exact .soft key
  · rename_i h1
    split at h
    · rename_i h2; cases h; exact toStopped_life _ (.inl h1) h2
    · rename_i h2
      split at h
      · cases h; exact toConnecting_life _ _ (.inr h1) (Decidable.not_not.1 h2)
      · cases h; exact .soft (.refl _)
  · cases h; exact .soft (.refl _)

theorem setup_life {cfg : Config} {c c' : Client} {err : Option Error} {now : Nat} (h : c.setup cfg err now = .ok c')
    (hs : c.ctl.state = .connecting) : Life c.ctl c'.ctl := by
  unfold Client.setup at h
  split at h
  · cases h; exact shutdownFinal_life _ _ _ (.inl hs)
  · rw [if_neg (by simp [hs])] at h
    split at h
    · cases h; exact .closing [] hs rfl (by simp) (by simp) rfl
    · rename_i hd
      have hd := Decidable.not_not.1 hd
      unfold Client.toMqttConnect at h
      rw [if_neg (by simp [hs])] at h
      split at h
      · cases h
      · simp only at h
        split at h
        · cases h
          have h1 := shutdownChannel_soft
            ({ c.ctl with state := .mqttConnect, slot := true, channel := true } : Control) .connectionReset
          obtain ⟨new, h2, h3⟩ := h1.events
          exact .closing new hs h1.wants h2 h3 (by
            unfold Control.shutdownChannel
            simp [State.open])
        · rename_i hr
          generalize connectView cfg.connect cfg.session c.ctl.hasConnected cfg.inboundAliases c.ctl.settings = v at h
          split at h
          · cases h
            have h1 := shutdownChannel_soft
              ({ c.ctl with state := .mqttConnect, slot := true, channel := true, settings := v.1 } : Control)
              .connectValidation
            obtain ⟨new, h2, h3⟩ := h1.events
            exact .closing new hs h1.wants h2 h3 (by
              unfold Control.shutdownChannel
              simp [State.open])
          · cases h
            exact .opened hs hd hd (by simpa using hr) rfl rfl

theorem onConnack_life {cfg : Config} {c c' : Client} {v : ConnackView} {now : Nat}
    (h : c.onConnack cfg v now = .ok c') (hm : c.ctl.state = .mqttConnect) : Life c.ctl c'.ctl := by
  have key : ∀ {k k' : Control} {e e' : Error}, k.emitFinalConnack e = .ok k' → Soft k (k'.shutdownChannel e') := by
    intro k k' e e' h1
    unfold Control.emitFinalConnack at h1
    split at h1
    · cases h1
    · cases h1; exact (emitFinal_soft ..).trans (shutdownChannel_soft ..)
  unfold Client.onConnack at h
  split at h
  · split at h
    · cases h
    · rename_i hk; cases h; exact .soft (key hk)
  · simp only at h
    split at h
    · split at h
      · cases h
      · rename_i hk
        cases h
        exact .soft (Soft.trans (b := { c.ctl with settings := c.ctl.settings.applyConnack v })
          (.of rfl rfl rfl rfl rfl rfl) (key hk))
    · injection h with h
      rw [← h]
      exact toConnected_life cfg c _ now hm (.of rfl rfl rfl rfl rfl rfl)

theorem step_life {cfg : Config} {c c' : Client} {e : Event} (h : step cfg c e = .ok c') (he : Enabled c e)
    (hd : ∀ d v, e ≠ .setDesired d v) (hr : e ≠ .resetConnection) : Life c.ctl c'.ctl := by
  cases e with
  | submit p t x =>
    injection h with h
    subst h
    rw [submit_ctl]
    exact .soft (.refl _)
  | setDesired d v => exact absurd rfl (hd d v)
  | service env => exact service_life h
  | setup err now => exact setup_life h he
  | shutdown e =>
    injection h with h
    subst h
    exact shutdownFinal_life cfg c e (.inr he)
  | writeComplete e =>
    injection h with h
    subst h
    unfold Client.writeComplete
    dsimp only
    split
    · exact .soft ((shutdownChannel_soft ..).trans (onCompleteAll_soft ..))
    · exact .soft (onCompleteAll_soft ..)
  | packet p a now =>
    change c.onPacket cfg p a now = .ok c' at h
    unfold Client.onPacket at h
    split at h
    · rename_i hm
      split at h
      · exact onConnack_life h hm
      · cases h; exact .soft (shutdownClean_soft ..)
    · exact .soft (onPacketConnected_soft h)
    · exact .soft (onPacketConnected_soft h)
    · cases h; exact .soft (.refl _)
  | readFailed e =>
    injection h with h
    subst h
    unfold Client.readFailed
    split
    · exact .soft (shutdownClean_soft ..)
    · exact .soft (shutdownChannel_soft ..)
  | invoke ctl =>
    injection h with h
    subst h
    exact .soft (.refl _)
  | resetConnection => exact absurd rfl hr

/-- A change of the state asked for, without a DISCONNECT. -/
theorem setDesired_none (c : Client) (d : Desired) :
    c.setDesired d none = { c with ctl := { c.ctl with desired := d } } := by
  unfold Client.setDesired
  split
  · rename_i h; cases c; rename_i k; cases k; cases h; rfl
  · rfl

/-- A change of the state asked for. -/
theorem setDesired_soft (c : Client) (d : Desired) (v : Option DisconnectView) :
    Soft ({ c.ctl with desired := d } : Control) (c.setDesired d v).ctl := by
  unfold Client.setDesired
  split
  · rename_i h; exact .of h rfl rfl rfl rfl rfl
  · dsimp only
    split
    · split
      · exact shutdownWith_soft ({ c with ctl := { c.ctl with desired := d } } : Client) _ _
      · exact .refl _
    · exact .refl _

/-- Resetting the connection: nothing of an earlier connection or attempt can succeed afterwards. -/
theorem resetConnection_soft (c : Client) :
    (∃ k, (k = c.ctl ∨ k = { c.ctl with shouldReset := true }) ∧ Soft k c.resetConnection.ctl) ∧
      (c.resetConnection.ctl.state = .connecting → c.resetConnection.ctl.shouldReset = true) ∧
      c.resetConnection.ops = c.ops := by
  unfold Client.resetConnection
  split
  · rename_i h
    refine ⟨⟨_, .inl rfl, shutdownChannel_soft ..⟩, fun hc => ?_, rfl⟩
    dsimp only at hc
    rcases (shutdownChannel_soft c.ctl .connectionReset).state with h1 | ⟨_, h1 | h1⟩ <;> rw [h1] at hc
    · rw [h] at hc; cases hc
    · cases hc
    · cases hc
  · rename_i h
    refine ⟨⟨_, .inl rfl, shutdownChannel_soft ..⟩, fun hc => ?_, rfl⟩
    dsimp only at hc
    rcases (shutdownChannel_soft c.ctl .connectionReset).state with h1 | ⟨_, h1 | h1⟩ <;> rw [h1] at hc
    · rw [h] at hc; cases hc
    · cases hc
    · cases hc
  · exact ⟨⟨_, .inr rfl, .refl _⟩, fun _ => rfl, rfl⟩
  · rename_i h1 h2 h3
    exact ⟨⟨_, .inl rfl, .refl _⟩, fun hc => absurd hc h3, rfl⟩

end Mqtt.Client5
