import Verif.Lemmas.Client5Size
import Verif.Lemmas.Client5Soft
import Verif.Spec.Connect5

/-!
The CONNECT packets of the MQTT 5 client.
-/
namespace Mqtt.Client5

open Mqtt.V5

theorem joined_append (l l' : List LEvent) : joined (l ++ l') = l'.foldl joinedOne (joined l) := by
  rw [joined, List.foldl_append]; rfl

theorem joined_ends {l l' : List LEvent} (h : ∀ e ∈ l', e.ends = true) : joined (l ++ l') = joined l := by
  rw [joined_append]
  generalize joined l = b
  induction l' with
  | nil => rfl
  | cons e l' ih =>
    rw [List.foldl_cons]
    have he := h e (by simp)
    have : joinedOne b e = b := by cases e <;> simp [LEvent.ends] at he <;> rfl
    rw [this]
    exact ih fun x hx => h x (by simp [hx])

theorem soft_joined {k k' : Control} (h : Soft k k') : joined k'.events = joined k.events := by
  obtain ⟨new, h1, h2⟩ := h.events
  rw [h1, joined_ends h2]

/-- Settings and the memory of a success stay. -/
def Firm (k k' : Control) : Prop := k'.hasConnected = k.hasConnected ∧ k'.settings = k.settings

theorem emitFinal_firm (k : Control) (e : Error) : Firm k (k.emitFinal e) := by
  unfold Control.emitFinal
  split <;> exact ⟨rfl, rfl⟩

theorem shutdownChannel_firm (k : Control) (e : Error) : Firm k (k.shutdownChannel e) := by
  unfold Control.shutdownChannel
  generalize (if e = .success then Error.other 0 else e) = e
  have h := emitFinal_firm k e
  dsimp only
  split
  · exact h
  · split
    · exact h
    · exact h

theorem onCompleteAll_firm (k : Control) (ops : List Op) (e : Error) : Firm k (k.onCompleteAll ops e) := by
  unfold Control.onCompleteAll
  induction ops generalizing k with
  | nil => exact ⟨rfl, rfl⟩
  | cons op ops ih =>
    have h1 : Firm k (k.onComplete op.packet e) := by
      unfold Control.onComplete
      split
      · exact shutdownChannel_firm ..
      · exact ⟨rfl, rfl⟩
    have h2 := ih (k.onComplete op.packet e)
    exact ⟨h2.1.trans h1.1, h2.2.trans h1.2⟩

/-- No CONNECT is held. -/
def Bare (s : OpState) : Prop := ∀ op ∈ s.held, isConnect op.packet = false

theorem isConnect_plain (p : Outgoing) : isConnect (plainPacket p) = isConnect p := by cases p <;> rfl

/-- What a move does to all that matters for CONNECT packets. -/
structure Turn (c c' : Client) : Prop where
  id : IdStays c.ctl.settings c'.ctl.settings
  quiet : c'.ctl.state.quiet = true → c.ctl.state.quiet = true ∨
    (∃ new, c'.ops.log = c.ops.log ++ new ∧ .disconnected ∈ new) ∧ Bare c'.ops
  conn : c'.ctl.state = .mqttConnect → c.ctl.state = .mqttConnect ∨ c.ctl.state = .connecting
  flag : c'.ctl.hasConnected = c.ctl.hasConnected ∧ joined c'.ctl.events = joined c.ctl.events ∨
    c'.ctl.state ≠ .mqttConnect ∧ c'.ctl.hasConnected = joined c'.ctl.events

theorem Turn.ctl {c c' : Client} (h : c'.ctl = c.ctl) : Turn c c' := by
  refine ⟨?_, ?_, ?_, ?_⟩ <;> rw [h]
  · exact fun _ => rfl
  · exact .inl
  · exact .inl
  · exact .inl ⟨rfl, rfl⟩

theorem kmove_turn {s : OpState} {k k' : Control} (m : KMove k k') : Turn ⟨s, k⟩ ⟨s, k'⟩ := by
  have hc := m.ctl
  have base : IdStays k.settings k'.settings → (k'.hasConnected = k.hasConnected ∧ joined k'.events = joined k.events) →
      Turn ⟨s, k⟩ ⟨s, k'⟩ := fun h1 h2 => ⟨h1, fun h => .inl (hc.quiet h), hc.connect, .inl h2⟩
  have firm : Firm k k' → joined k'.events = joined k.events → Turn ⟨s, k⟩ ⟨s, k'⟩ :=
    fun h1 h2 => base (fun _ => by rw [h1.2]) ⟨h1.1, h2⟩
  cases m with
  | shutdown e _ => exact firm (shutdownChannel_firm ..) (soft_joined (shutdownChannel_soft ..))
  | giveUp => exact firm (shutdownChannel_firm ..) (soft_joined (shutdownChannel_soft ..))
  | emitShutdown e e' _ =>
    have h1 := emitFinal_firm k e
    have h2 := shutdownChannel_firm (k.emitFinal e) e'
    exact firm ⟨h2.1.trans h1.1, h2.2.trans h1.2⟩
      ((soft_joined (shutdownChannel_soft ..)).trans (soft_joined (emitFinal_soft ..)))
  | emitClean e e' _ =>
    have h := soft_joined (emitFinal_soft k e)
    exact firm (emitFinal_firm k e) h
  | misc _ h1 h2 h3 h4 h5 h6 h7 h8 => exact firm ⟨h8, h2⟩ (by rw [h7])
  | desired d => exact firm ⟨rfl, rfl⟩ rfl
  | connecting _ _ =>
    refine firm ⟨rfl, rfl⟩ ?_
    simp only
    rw [joined_append]; rfl
  | kickOff e _ _ =>
    have h := soft_joined (emitFinal_soft k e)
    exact firm (emitFinal_firm k e) h
  | refuse _ _ => exact firm ⟨rfl, rfl⟩ rfl
  | opened _ _ => exact firm ⟨rfl, rfl⟩ rfl
  | settings s' _ _ hid => exact base hid ⟨rfl, rfl⟩
  | clean e _ => exact firm ⟨rfl, rfl⟩ rfl

theorem retained_bare {b : OfflineBehavior} {p : Outgoing} (h : retained b p = true) : isConnect p = false := by
  cases p <;> first | rfl | (cases b <;> cases h)

theorem move_turn {cfg : Config} {c c' : Client} (hl : LiveInv c) (m : Move cfg c c') : Turn c c' := by
  cases m with
  | control k hk => exact kmove_turn hk
  | disconnection e st hst =>
    have h1 := emitFinal_firm c.ctl (if e = .success then .hangup else e)
    have h2 := soft_joined (emitFinal_soft c.ctl (if e = .success then .hangup else e))
    generalize hk : c.ctl.emitFinal (if e = .success then .hangup else e) = k at h1 h2
    have h3 := onCompleteAll_firm { k with slot := false, channel := false } (c.ops.lostOnDisconnection cfg) .offlinePolicy
    have h4 := soft_joined (onCompleteAll_soft { k with slot := false, channel := false } (c.ops.lostOnDisconnection cfg)
      .offlinePolicy)
    unfold Control.channelGone
    rw [hk]
    generalize Control.onCompleteAll { k with slot := false, channel := false } (c.ops.lostOnDisconnection cfg)
      .offlinePolicy = k' at h3 h4
    refine ⟨fun _ => ?_, fun _ => .inr ⟨⟨_, onDisconnection_log _ _, by simp⟩, ?_⟩, ?_, .inl ⟨h3.1.trans h1.1, h4.trans h2⟩⟩
    · show k'.settings.clientId = _
      rw [h3.2]; exact congrArg _ h1.2
    · intro o ho
      simp only [OpState.held, onDisconnection_queued, onDisconnection_current, onDisconnection_writing,
        onDisconnection_unacked, keep, keepUnacked, List.mem_append, List.mem_filter, List.mem_map,
        Option.toList_none, List.not_mem_nil, false_or] at ho
      rcases ho with ⟨_, h⟩ | ⟨⟨o', ho', rfl⟩, _⟩
      · exact retained_bare h
      · have := hl.acked o' ho'
        rw [← isConnect_plain, plain_mark, isConnect_plain]
        revert this
        cases o'.packet <;> simp [requiresAck, isConnect]
    · intro h
      rcases hst with rfl | rfl <;> cases h
  | connection settings now hst hfits hids =>
    have h1 : (({ c with ctl := { c.ctl with settings := settings } } : Client).toConnected cfg now).ctl =
        { (({ c.ctl with settings := settings, state := .connected } : Control).onCompleteAll
            (lostOnConnection cfg settings c.ops) .offlinePolicy) with
          hasConnected := true
          pingTimeout := 0
          nextPing := (({ (({ c.ctl with settings := settings, state := .connected } : Control).onCompleteAll
            (lostOnConnection cfg settings c.ops) .offlinePolicy) with hasConnected := true, pingTimeout := 0 } :
              Control).resetPing now).nextPing
          lifecycle := .connected
          events := (({ c.ctl with settings := settings, state := .connected } : Control).onCompleteAll
            (lostOnConnection cfg settings c.ops) .offlinePolicy).events ++ [.success] } := rfl
    have h2 := onCompleteAll_firm { c.ctl with settings := settings, state := .connected }
      (lostOnConnection cfg settings c.ops) .offlinePolicy
    have h3 := (onCompleteAll_soft { c.ctl with settings := settings, state := .connected }
      (lostOnConnection cfg settings c.ops) .offlinePolicy).state
    generalize Control.onCompleteAll { c.ctl with settings := settings, state := .connected }
      (lostOnConnection cfg settings c.ops) .offlinePolicy = k at h1 h2 h3
    have hs : k.state = .connected ∨ k.state = .cleanDisconnect ∨ k.state = .channelShutdown := by
      rcases h3 with h | ⟨_, h⟩
      · exact .inl h
      · exact .inr h
    refine ⟨?_, ?_, ?_, .inr ⟨?_, ?_⟩⟩ <;> rw [h1]
    · show IdStays _ k.settings
      rw [h2.2]; exact hids
    · intro h
      simp only at h
      rcases hs with hs | hs | hs <;> rw [hs] at h <;> cases h
    · intro h
      simp only at h
      rcases hs with hs | hs | hs <;> rw [hs] at h <;> cases h
    · intro h
      simp only at h
      rcases hs with hs | hs | hs <;> rw [hs] at h <;> cases h
    · simp only
      rw [joined_append]; rfl
  | reset hst =>
    have h2 := onCompleteAll_firm { c.ctl with state := .stopped }
      (c.ops.queued ++ c.ops.writing ++ c.ops.unacked) .userStop
    have h3 := (onCompleteAll_soft { c.ctl with state := .stopped }
      (c.ops.queued ++ c.ops.writing ++ c.ops.unacked) .userStop).state
    have hq : c.ctl.state.quiet = true := by rcases hst with h | h <;> rw [h] <;> rfl
    have h1 : c.toStopped.ctl = { (({ c.ctl with state := .stopped } : Control).onCompleteAll
        (c.ops.queued ++ c.ops.writing ++ c.ops.unacked) .userStop) with
        hasConnected := false
        events := (({ c.ctl with state := .stopped } : Control).onCompleteAll
          (c.ops.queued ++ c.ops.writing ++ c.ops.unacked) .userStop).events ++ [.stopped] } := rfl
    generalize Control.onCompleteAll { c.ctl with state := .stopped }
      (c.ops.queued ++ c.ops.writing ++ c.ops.unacked) .userStop = k at h1 h2 h3
    have hs : k.state = .stopped := by
      rcases h3 with h | ⟨h, _⟩
      · exact h
      · cases h
    refine ⟨?_, fun _ => .inl hq, ?_, .inr ⟨?_, ?_⟩⟩ <;> rw [h1]
    · intro _
      show k.settings.clientId = _
      rw [h2.2]
    · intro h
      simp only [hs] at h
      cases h
    · intro h
      simp only [hs] at h
      cases h
    · simp only
      rw [joined_append]; rfl
  | terminate hst hd =>
    have h2 := onCompleteAll_firm { c.ctl with state := .terminated }
      (c.ops.queued ++ c.ops.writing ++ c.ops.unacked) .terminated
    have h3 := onCompleteAll_soft { c.ctl with state := .terminated }
      (c.ops.queued ++ c.ops.writing ++ c.ops.unacked) .terminated
    have h1 : c.toTerminated.ctl = (({ c.ctl with state := .terminated } : Control).onCompleteAll
        (c.ops.queued ++ c.ops.writing ++ c.ops.unacked) .terminated) := rfl
    generalize Control.onCompleteAll { c.ctl with state := .terminated }
      (c.ops.queued ++ c.ops.writing ++ c.ops.unacked) .terminated = k at h1 h2 h3
    have hs : k.state = .terminated := by
      rcases h3.state with h | ⟨h, _⟩
      · exact h
      · cases h
    refine ⟨?_, fun _ => .inl (by rw [hst]; rfl), ?_, .inl ⟨?_, ?_⟩⟩ <;> rw [h1]
    · intro _
      rw [h2.2]
    · intro h
      rw [hs] at h
      cases h
    · exact h2.1
    · have h4 := soft_joined h3
      exact h4
  | token id hst => exact .ctl (by unfold Client.onPuback; rfl)
  | _ => exact .ctl rfl

/-- A CONNECT that is made from the options. -/
def Fair (cfg : Config) (v : ConnectView) : Prop :=
  newConnect { cfg.connect with
    cleanStart := v.cleanStart
    topicAliasMaximum := match cfg.inboundAliases with | some n => some n | none => cfg.connect.topicAliasMaximum
    clientId := v.clientId } = some v ∧
  (cfg.connect.clientId ≠ [] → v.clientId = cfg.connect.clientId)

structure ConnectInv (cfg : Config) (c : Client) : Prop where
  id : cfg.connect.clientId ≠ [] → c.ctl.settings.clientId = cfg.connect.clientId
  held : ∀ op ∈ c.ops.held, ∀ v, op.packet = .connect v → Fair cfg v
  sent : ∀ u v w, .started u (.connect v) w ∈ c.ops.log → Fair cfg v
  quiet : c.ctl.state.quiet = true → Bare c.ops
  clean : c.ctl.state = .mqttConnect → ∀ op ∈ c.ops.held, ∀ v, op.packet = .connect v →
    v.cleanStart = !shouldResume cfg.session c.ctl.hasConnected
  flag : c.ctl.hasConnected = joined c.ctl.events

theorem connect_new (cfg : Config) : ConnectInv cfg (Client.new cfg) := by
  refine ⟨fun _ => rfl, ?_, ?_, ?_, ?_, rfl⟩ <;> simp [Client.new, OpState.held, Bare]

theorem plain_connect {p : Outgoing} {v : ConnectView} (h : plainPacket p = .connect v) : p = .connect v := by
  cases p <;> simp [plainPacket, withPacketId] at h ⊢
  exact h

theorem plain_is_connect {o : Outgoing} {v : ConnectView} (h : plainPacket o = plainPacket (.connect v)) :
    o = .connect v := plain_connect h

theorem newConnect_fields {a v : ConnectView} (h : newConnect a = some v) :
    v.cleanStart = a.cleanStart ∧ v.clientId = a.clientId := by
  unfold newConnect at h
  split at h
  · cases h
  · cases h; exact ⟨rfl, rfl⟩

theorem made_fair {cfg : Config} {c : Client} {v : ConnectView} (h : ConnectInv cfg c) (hm : Made cfg c (.connect v)) :
    Fair cfg v ∧ v.cleanStart = !shouldResume cfg.session c.ctl.hasConnected := by
  obtain ⟨_, v', h1, h2⟩ := hm
  cases h1
  obtain ⟨h3, h4⟩ := newConnect_fields h2
  simp only at h3 h4
  refine ⟨⟨?_, fun hx => by rw [h4]; exact h.id hx⟩, h3⟩
  rw [h3, h4]; exact h2

/-- Where a CONNECT held after a move comes from. -/
theorem connect_born {cfg : Config} {c c' : Client} (m : Move cfg c c') {op : Op} (ho : op ∈ c'.ops.held) {v : ConnectView}
    (hv : op.packet = .connect v) :
    (∃ o ∈ c.ops.held, o.packet = .connect v) ∨ Made cfg c (.connect v) := by
  rcases move_born m op ho with ⟨o, h1, h2, h3⟩ | ⟨_, ⟨_, h2⟩ | h2⟩
  · rw [hv] at h3
    exact .inl ⟨o, h1, plain_is_connect h3⟩
  · rw [hv] at h2
    exact .inr (h2 rfl)
  · rw [hv] at h2
    exact absurd h2.1 (by simp [Enabled.Submittable])

/-- A CONNECT that is started was queued. -/
theorem connect_started {cfg : Config} {c c' : Client} (m : Move cfg c c') :
    ∃ new, c'.ops.log = c.ops.log ++ new ∧ ∀ u v w, .started u (.connect v) w ∈ new →
      new = [.started u (.connect v) w] ∧ ∃ o ∈ c.ops.held, o.packet = .connect v := by
  obtain ⟨new, h1, h2 | ⟨op, op', rest, n, enc, hn, hq, _, _, hb, _⟩⟩ := move_started m
  · exact ⟨new, h1, fun u v w hx => absurd rfl (h2 _ hx u (.connect v) w)⟩
  · refine ⟨new, h1, fun u v w hx => ?_⟩
    rw [hn] at hx ⊢
    simp only [List.mem_singleton, Effect.started.injEq] at hx
    obtain ⟨hx1, hx2, hx3⟩ := hx
    refine ⟨by rw [hx1, hx2, hx3], op, by simp [OpState.held, hq], ?_⟩
    rcases bind_cases hb with ⟨_, _, rfl⟩ | ⟨_, id, _, _, rfl⟩
    · exact hx2.symm
    · have : plainPacket op.packet = .connect v := by
        have := congrArg plainPacket hx2
        simp only [plain_withPacketId] at this
        exact this.symm
      exact plain_connect this

theorem connect_move {cfg : Config} {c c' : Client} (h : ConnectInv cfg c) (hl : LiveInv c) (m : Move cfg c c') :
    ConnectInv cfg c' := by
  have ht := move_turn hl m
  refine ⟨fun hx => ?_, ?_, ?_, ?_, ?_, ?_⟩
  · have := h.id hx
    rw [ht.id (by rw [this]; exact hx), this]
  · intro op ho v hv
    rcases connect_born m ho hv with ⟨o, h1, h2⟩ | h1
    · exact h.held o h1 v h2
    · exact (made_fair h h1).1
  · intro u v w hx
    obtain ⟨new, h1, h2⟩ := connect_started m
    rw [h1] at hx
    rcases List.mem_append.1 hx with hx | hx
    · exact h.sent u v w hx
    · obtain ⟨_, o, h3, h4⟩ := h2 u v w hx
      exact h.held o h3 v h4
  · intro hq op ho
    rcases ht.quiet hq with h1 | ⟨_, h1⟩
    · cases hv : op.packet with
      | connect v =>
        rcases connect_born m ho hv with ⟨o, h2, h3⟩ | h2
        · have := h.quiet h1 o h2
          rw [h3] at this; cases this
        · rw [h2.1] at h1; cases h1
      | _ => rfl
    · exact h1 op ho
  · intro hs op ho v hv
    have hc : c'.ctl.hasConnected = c.ctl.hasConnected := by
      rcases ht.flag with h1 | h1
      · exact h1.1
      · exact absurd hs h1.1
    rw [hc]
    rcases connect_born m ho hv with ⟨o, h2, h3⟩ | h2
    · rcases ht.conn hs with h4 | h4
      · exact h.clean h4 o h2 v h3
      · have := h.quiet (by rw [h4]; rfl) o h2
        rw [h3] at this; cases this
    · exact (made_fair h h2).2
  · rcases ht.flag with h1 | h1
    · rw [h1.1, h1.2]; exact h.flag
    · exact h1.2

theorem reachable_connect {cfg : Config} {c : Client} (h : Reachable cfg c) : ConnectInv cfg c :=
  (reachable_inv (P := fun c => (HeldInv c ∧ LiveInv c) ∧ ConnectInv cfg c)
    ⟨⟨held_new cfg, live_new cfg⟩, connect_new cfg⟩
    (fun _ _ h m => ⟨⟨held_move h.1.1 m, live_move h.1.1 h.1.2 m⟩, connect_move h.2 h.1.2 m⟩) h).2

/-- Since a client was opening a connection. -/
structure Same (h0 : Bool) (cfg : Config) (log : List Effect) (c : Client) : Prop where
  sent : ∃ new, c.ops.log = log ++ new ∧
    (∀ a u v w b, new = a ++ .started u (.connect v) w :: b → .disconnected ∉ a → v.cleanStart = !shouldResume cfg.session h0) ∧
    (.disconnected ∉ new → c.ctl.state.quiet = false ∧ (c.ctl.state = .mqttConnect → c.ctl.hasConnected = h0) ∧
      ∀ op ∈ c.ops.held, ∀ v, op.packet = .connect v → v.cleanStart = !shouldResume cfg.session h0)

theorem same_start {cfg : Config} {c : Client} (h : ConnectInv cfg c) (hs : c.ctl.state = .mqttConnect) :
    Same c.ctl.hasConnected cfg c.ops.log c :=
  ⟨[], by simp, by simp, fun _ => ⟨by rw [hs]; rfl, fun _ => rfl, h.clean hs⟩⟩

theorem same_move {h0 : Bool} {cfg : Config} {log : List Effect} {c c' : Client} (hi : ConnectInv cfg c) (hl : LiveInv c)
    (h : Same h0 cfg log c) (m : Move cfg c c') : Same h0 cfg log c' := by
  obtain ⟨new, h1, h2, h3⟩ := h.sent
  obtain ⟨more, h4, h5⟩ := connect_started m
  have ht := move_turn hl m
  refine ⟨new ++ more, by rw [h4, h1, List.append_assoc], ?_, ?_⟩
  · intro a u v w b hab hd
    rcases List.append_eq_append_iff.1 hab with ⟨x, h6, h7⟩ | ⟨x, h6, h7⟩
    · obtain ⟨h8, o, h9, h10⟩ := h5 u v w (by rw [h7]; simp)
      have hx : x = [] := by
        rw [h7] at h8
        cases x with
        | nil => rfl
        | cons y ys => simp at h8
      rw [hx, List.append_nil] at h6
      rw [h6] at hd
      exact (h3 hd).2.2 o h9 v h10
    · cases x with
      | nil =>
        simp only [List.append_nil] at h6
        simp only [List.nil_append] at h7
        obtain ⟨_, o, h9, h10⟩ := h5 u v w (by rw [← h7]; simp)
        rw [← h6] at hd
        exact (h3 hd).2.2 o h9 v h10
      | cons y ys =>
        simp only [List.cons_append, List.cons.injEq] at h7
        refine h2 a u v w ys (by rw [h6, ← h7.1]) hd
  · intro hd
    simp only [List.mem_append, not_or] at hd
    obtain ⟨h6, h7, h8⟩ := h3 hd.1
    have hq : c'.ctl.state.quiet = false := by
      cases hx : c'.ctl.state.quiet
      · rfl
      · rcases ht.quiet hx with h9 | ⟨⟨n, h9, h10⟩, _⟩
        · rw [h6] at h9; cases h9
        · rw [h4] at h9
          exact absurd (List.append_cancel_left h9 ▸ h10) hd.2
    have hconn : c'.ctl.state = .mqttConnect → c.ctl.state = .mqttConnect ∧ c'.ctl.hasConnected = c.ctl.hasConnected := by
      intro hs
      refine ⟨?_, ?_⟩
      · rcases ht.conn hs with h9 | h9
        · exact h9
        · rw [h9] at h6; cases h6
      · rcases ht.flag with h9 | h9
        · exact h9.1
        · exact absurd hs h9.1
    refine ⟨hq, fun hs => by rw [(hconn hs).2]; exact h7 (hconn hs).1, ?_⟩
    intro op ho v hv
    rcases connect_born m ho hv with ⟨o, h9, h10⟩ | h9
    · exact h8 o h9 v h10
    · rw [← h7 h9.1]; exact (made_fair hi h9).2

theorem same_later {h0 : Bool} {cfg : Config} {log : List Effect} {c c' : Client} (hr : Reachable cfg c)
    (h : Same h0 cfg log c) (hl : Later cfg c c') : Same h0 cfg log c' ∧ Reachable cfg c' := by
  induction hl with
  | refl => exact ⟨h, hr⟩
  | @step c1 c2 e _ he hs ih =>
    obtain ⟨h1, h2⟩ := ih
    have hlive := reachable_live h2
    refine ⟨(moves_inv (P := fun c => ((HeldInv c ∧ LiveInv c) ∧ ConnectInv cfg c) ∧ Same h0 cfg log c) ?_ (step_moves he hs)
      ⟨⟨hlive, reachable_connect h2⟩, h1⟩).2, .step h2 he hs⟩
    intro c c' h m
    exact ⟨⟨⟨held_move h.1.1.1 m, live_move h.1.1.1 h.1.1.2 m⟩, connect_move h.1.2 h.1.1.2 m⟩, same_move h.1.2 h.1.1.2 h.2 m⟩

end Mqtt.Client5
