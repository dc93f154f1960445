import Verif.Spec.Client5

/-!
Every event of the MQTT 5 client is a sequence of small moves (`step_moves`); invariants are proved move
by move.
-/
namespace Mqtt.Client5

open Mqtt.V5

attribute [local irreducible] pingDue pingDeadline connackDeadline ackDeadline

/-! ## Closed forms -/

/-- Statistics after completing operations. -/
def completeStats (st : Stats) (ops : List Op) : Stats :=
  ops.foldl (fun st op => (changeStats st op false false).1) st

/-- What completing operations adds to the log. -/
def completions (ops : List Op) (e : Error) : List Effect :=
  ops.map fun op => .completed op.uid op.packet e none

theorem completeAll_eq (s : OpState) (ops : List Op) (e : Error) :
    s.completeAll ops e =
      { s with
        stats := completeStats s.stats ops
        timeouts := s.timeouts.filter (fun u => !(ops.map (·.uid)).contains u)
        log := s.log ++ completions ops e } := by
  induction ops generalizing s with
  | nil =>
    have : s.timeouts.filter (fun _ => true) = s.timeouts := List.filter_eq_self.2 (by simp)
    simp [OpState.completeAll, completeStats, completions, this]
  | cons op ops ih =>
    rw [OpState.completeAll, List.foldl_cons]
    have := ih (s.complete op e none)
    rw [OpState.completeAll] at this
    rw [this]
    simp only [OpState.complete, completeStats, completions, List.foldl_cons, List.map_cons, List.filter_filter,
      List.append_assoc, List.singleton_append]
    congr 1
    apply List.filter_congr
    intro u _
    simp only [List.contains_cons, Bool.not_or, bne]
    rw [Bool.and_comm]

/-- The states without a channel. -/
def State.quiet : State → Bool
  | .stopped => true
  | .connecting => true
  | .pendingReconnect => true
  | .terminated => true
  | _ => false

/-- Moves of the control part on its own. -/
structure Ctl (k k' : Control) : Prop where
  quiet : k'.state.quiet = true → k.state.quiet = true
  connect : k'.state = .mqttConnect → k.state = .mqttConnect ∨ k.state = .connecting
  up : k'.state = .connected → k.state = .connected ∧ k'.settings = k.settings
  clean : k'.state = .cleanDisconnect → k.state.open = true ∧ k'.settings = k.settings

theorem Ctl.refl (k : Control) : Ctl k k :=
  ⟨id, .inl, fun h => ⟨h, rfl⟩, fun h => ⟨by simp [h, State.open], rfl⟩⟩

/-- Same state and settings. -/
theorem Ctl.same {k k' : Control} (h : k'.state = k.state) (hs : k'.settings = k.settings) : Ctl k k' :=
  ⟨fun q => h ▸ q, fun q => .inl (h ▸ q), fun q => ⟨h ▸ q, hs⟩, fun q => ⟨by rw [← h, q]; rfl, hs⟩⟩

theorem Ctl.closed {k k' : Control} (h : k'.state = .channelShutdown) : Ctl k k' :=
  ⟨by simp [h, State.quiet], by simp [h], by simp [h], by simp [h]⟩

/-- The alias maximum of the settings is a 16-bit number. -/
def AliasFits (s : Settings) : Prop := s.topicAliasMaximumToServer < 65536

/-- A client id once set stays. -/
def IdStays (s s' : Settings) : Prop := s.clientId ≠ [] → s'.clientId = s.clientId

/-- Moves of the control part on its own. -/
inductive KMove : Control → Control → Prop where
  | shutdown (k : Control) (e : Error) : (k.state = .connecting → k.slot = true) → KMove k (k.shutdownChannel e)
  | giveUp (k : Control) : KMove k (k.shutdownChannel .userStop)
  | emitShutdown (k : Control) (e e' : Error) : k.state.open = true → KMove k ((k.emitFinal e).shutdownChannel e')
  | emitClean (k : Control) (e e' : Error) : k.state = .connected →
      KMove k { k.emitFinal e with cleanError := e', state := .cleanDisconnect }
  | misc (k k' : Control) : k'.state = k.state → k'.settings = k.settings → k'.lifecycle = k.lifecycle →
      k'.slot = k.slot → k'.channel = k.channel → k'.desired = k.desired → k'.events = k.events →
      k'.hasConnected = k.hasConnected → KMove k k'
  | desired (k : Control) (d : Desired) : KMove k { k with desired := d }
  | connecting (k : Control) : (k.state = .stopped ∨ k.state = .pendingReconnect) → k.desired = .connected →
      KMove k { k with
        state := .connecting, cleanError := .success, shouldReset := false, lifecycle := .connecting,
        events := k.events ++ [.attempting] }
  | kickOff (k : Control) (e : Error) : k.state = .connecting → k.lifecycle = .connecting →
      KMove k { k.emitFinal e with state := .pendingReconnect }
  | refuse (k : Control) : k.state = .connecting → k.desired ≠ .connected →
      KMove k { k with state := .channelShutdown, channel := true }
  | opened (k : Control) : k.state = .connecting → k.desired = .connected →
      KMove k { k with state := .mqttConnect, slot := true, channel := true }
  | settings (k : Control) (s : Settings) : k.state = .mqttConnect → (AliasFits k.settings → AliasFits s) →
      IdStays k.settings s → KMove k { k with settings := s }
  | clean (k : Control) (e : Error) : (k.state = .connected ∨ k.state = .mqttConnect) →
      KMove k { k with cleanError := e, state := .cleanDisconnect }

/-- What a step may read from outside: the clock, and the operations handed in with their ack timeouts; and whether it may
be the last one. -/
structure Readings where
  clock : Nat → Prop
  asked : Outgoing → Nat → Prop
  ends : Prop

/-- Nothing is known about what is read. -/
def Readings.any : Readings := ⟨fun _ => True, fun _ _ => True, True⟩

/-- The CONNECT a client makes for its next connection. -/
def Made (cfg : Config) (c : Client) (p : Outgoing) : Prop :=
  c.ctl.state = .mqttConnect ∧ ∃ v, p = .connect v ∧ newConnect { cfg.connect with
    cleanStart := !shouldResume cfg.session c.ctl.hasConnected
    topicAliasMaximum := match cfg.inboundAliases with | some n => some n | none => cfg.connect.topicAliasMaximum
    clientId := c.ctl.settings.clientId } = some v

/-- One move of the client. -/
inductive MoveG (g : Readings) (cfg : Config) : Client → Client → Prop where
  | control (c : Client) (k : Control) : KMove c.ctl k → MoveG g cfg c ⟨c.ops, k⟩
  | accept (c : Client) (p : Outgoing) (t : Nat) : isUser p = true → Enabled.Submittable p →
      c.ctl.state ≠ .terminated → g.asked p t → MoveG g cfg c ⟨c.ops.accept p t, c.ctl⟩
  | reject (c : Client) (p : Outgoing) (e : Error) : isUser p = true → e ≠ .timeout →
      MoveG g cfg c ⟨c.ops.reject p e, c.ctl⟩
  | push (c : Client) (p : Outgoing) : (p = .pingreq ∨ isConnect p = true ∨ isDisconnect p = true) →
      c.ctl.state ≠ .terminated → (isConnect p = true → Made cfg c p) → MoveG g cfg c ⟨c.ops.pushFront p, c.ctl⟩
  | publish (c : Client) (v : PublishView) (acquire : Bool) :
      (c.ctl.state = .connected ∨ c.ctl.state = .cleanDisconnect) → MoveG g cfg c ⟨c.ops.onPublish v acquire, c.ctl⟩
  | invoke (c : Client) (ctl : Nat) : c.ctl.state ≠ .terminated → MoveG g cfg c ⟨c.ops.invoke ctl, c.ctl⟩
  | token (c : Client) (id : Nat) : (c.ctl.state = .connected ∨ c.ctl.state = .cleanDisconnect) →
      MoveG g cfg c (c.onPuback id)
  | invalid (c : Client) (op : Op) (rest : List Op) (e : Error) :
      c.ops.queued = op :: rest → c.invalid cfg op.packet = some e →
      MoveG g cfg c ⟨({ c.ops with queued := rest } : OpState).complete op e none, c.ctl⟩
  | start (c : Client) (op : Op) (rest : List Op) (s : OpState) (ok : Bool) :
      c.ops.queued = op :: rest → c.ops.current = none → c.invalid cfg op.packet = none →
      (c.ctl.state = .connected ∨ c.ctl.state = .mqttConnect ∧ isConnect op.packet = true ∨
        c.ctl.state = .cleanDisconnect ∧ isDisconnect op.packet = true) →
      ({ c.ops with queued := rest } : OpState).setCurrent op = .ok (s, ok) →
      (isQos1 op.packet = true → 0 < c.ops.tokens ∨ refused c.ops.log = true) → MoveG g cfg c ⟨s, c.ctl⟩
  | encode (c : Client) (op : Op) (buf buf' : Buf) (enc : Encoder) (r : EncodeResult) :
      c.ops.current = some op → c.ops.encoder.encodeToBuffer buf = (r, buf', enc) →
      MoveG g cfg c ⟨{ c.ops with encoder := enc }, c.ctl⟩
  | finish (c : Client) (op : Op) (now : Nat) (s : OpState) :
      c.ops.current = some op → c.ops.encoder.steps = [] → c.ops.finish cfg op now = .ok s →
      g.clock now → MoveG g cfg c ⟨s, c.ctl⟩
  | write (c : Client) (data : Bytes) :
      MoveG g cfg c ⟨{ c.ops with pendingWrite := true, log := c.ops.log ++ [.wrote data] }, c.ctl⟩
  | pinged (c : Client) (uid : Nat) : MoveG g cfg c ⟨{ c.ops with log := c.ops.log ++ [.pingQueued uid] }, c.ctl⟩
  | unwrite (c : Client) : MoveG g cfg c ⟨{ c.ops with pendingWrite := false }, c.ctl⟩
  | written (c : Client) (e : Error) :
      MoveG g cfg c ⟨({ c.ops with pendingWrite := false, writing := [] } : OpState).completeAll c.ops.writing e, c.ctl⟩
  | ack (c : Client) (id uid : Nat) (op : Op) (rest : List Op) (e : Error) (a : Option Received) :
      c.ops.table.get id = some uid → takeUid uid c.ops.unacked = some (op, rest) →
      (packetId op.packet = id → ∀ r, a = some r → Answers r op.packet) → e ≠ .timeout →
      MoveG g cfg c ⟨({ c.ops with unacked := rest, table := c.ops.table.del id } : OpState).complete op e a, c.ctl⟩
  | timeout (c : Client) (op : Op) (rest : List Op) :
      takeUid op.uid c.ops.unacked = some (op, rest) → (c.ops.table.get (packetId op.packet)).isSome →
      (∃ now, g.clock now ∧ op.deadline ≤ now) → op.uid ∈ c.ops.timeouts →
      MoveG g cfg c ⟨({ c.ops with unacked := rest, table := c.ops.table.del (packetId op.packet) } : OpState).complete
        op .timeout none, c.ctl⟩
  | forget (c : Client) (uid : Nat) :
      (∃ op rest, takeUid uid c.ops.unacked = some (op, rest) ∧ c.ops.table.get (packetId op.packet) = none) →
      MoveG g cfg c ⟨{ c.ops with timeouts := c.ops.timeouts.filter (· != uid) }, c.ctl⟩
  | fresh (c : Client) : c.ctl.state.quiet = true →
      MoveG g cfg c ⟨{ c.ops with pendingWrite := false, encoder := { c.ops.encoder with steps := [] } }, c.ctl⟩
  | disconnection (c : Client) (e : Error) (st : State) : (st = .stopped ∨ st = .pendingReconnect) →
      MoveG g cfg c ⟨c.ops.onDisconnection cfg,
        { c.ctl.channelGone (c.ops.lostOnDisconnection cfg) e with state := st }⟩
  | connection (c : Client) (settings : Settings) (now : Nat) : c.ctl.state = .mqttConnect →
      (AliasFits c.ctl.settings → AliasFits settings) → IdStays c.ctl.settings settings →
      MoveG g cfg c (({ c with ctl := { c.ctl with settings := settings } } : Client).toConnected cfg now)
  | reset (c : Client) : (c.ctl.state = .stopped ∨ c.ctl.state = .pendingReconnect) → MoveG g cfg c c.toStopped
  | terminate (c : Client) : c.ctl.state = .stopped → c.ctl.desired = .terminated → g.ends → MoveG g cfg c c.toTerminated

/-- One move of the client, whatever it reads. -/
abbrev Move (cfg : Config) : Client → Client → Prop := MoveG .any cfg

/-- Any number of moves. -/
inductive MovesG (g : Readings) (cfg : Config) : Client → Client → Prop where
  | nil (c : Client) : MovesG g cfg c c
  | cons {c c' c'' : Client} : MoveG g cfg c c' → MovesG g cfg c' c'' → MovesG g cfg c c''

theorem MovesG.single {g cfg c c'} (h : MoveG g cfg c c') : MovesG g cfg c c' := .cons h (.nil _)

theorem MovesG.append {g cfg c c' c''} (h : MovesG g cfg c c') (h' : MovesG g cfg c' c'') : MovesG g cfg c c'' := by
  induction h with
  | nil => exact h'
  | cons m _ ih => exact .cons m (ih h')

theorem MovesG.snoc {g cfg c c' c''} (h : MovesG g cfg c c') (h' : MoveG g cfg c' c'') : MovesG g cfg c c'' :=
  h.append (.single h')

/-- Any number of moves, whatever they read. -/
abbrev Moves (cfg : Config) : Client → Client → Prop := MovesG .any cfg

theorem MoveG.any {g cfg c c'} (h : MoveG g cfg c c') : Move cfg c c' := by
  cases h with
  | control k h => exact .control c k h
  | accept p t h1 h2 h3 => exact .accept c p t h1 h2 h3 trivial
  | reject p e h h' => exact .reject c p e h h'
  | push p h1 h2 h3 => exact .push c p h1 h2 h3
  | publish v a h => exact .publish c v a h
  | invoke ctl h => exact .invoke c ctl h
  | token id h => exact .token c id h
  | invalid op rest e h1 h2 => exact .invalid c op rest e h1 h2
  | start op rest s ok h1 h2 h3 h4 h5 h6 => exact .start c op rest s ok h1 h2 h3 h4 h5 h6
  | encode op buf buf' enc r h1 h2 => exact .encode c op buf buf' enc r h1 h2
  | finish op now s h1 h2 h3 => exact .finish c op now s h1 h2 h3 trivial
  | write data => exact .write c data
  | pinged uid => exact .pinged c uid
  | unwrite => exact .unwrite c
  | written e => exact .written c e
  | ack id uid op rest e a h1 h2 h3 h4 => exact .ack c id uid op rest e a h1 h2 h3 h4
  | timeout op rest h1 h2 h3 h4 => exact .timeout c op rest h1 h2 (h3.imp fun _ h => ⟨trivial, h.2⟩) h4
  | forget uid h => exact .forget c uid h
  | fresh h => exact .fresh c h
  | disconnection e st h => exact .disconnection c e st h
  | connection settings now h1 h2 h3 => exact .connection c settings now h1 h2 h3
  | reset h => exact .reset c h
  | terminate h1 h2 => exact .terminate c h1 h2 trivial

theorem MovesG.any {g cfg c c'} (h : MovesG g cfg c c') : Moves cfg c c' := by
  induction h with
  | nil => exact .nil _
  | cons m _ ih => exact .cons m.any ih

variable {g : Readings}

/-! ## Control functions as moves -/

@[simp] theorem emitFinal_state (k : Control) (e : Error) : (k.emitFinal e).state = k.state := by
  unfold Control.emitFinal; split <;> rfl
@[simp] theorem emitFinal_settings (k : Control) (e : Error) : (k.emitFinal e).settings = k.settings := by
  unfold Control.emitFinal; split <;> rfl
@[simp] theorem emitFinal_slot (k : Control) (e : Error) : (k.emitFinal e).slot = k.slot := by
  unfold Control.emitFinal; split <;> rfl
@[simp] theorem emitFinal_desired (k : Control) (e : Error) : (k.emitFinal e).desired = k.desired := by
  unfold Control.emitFinal; split <;> rfl

theorem shutdownChannel_cases (k : Control) (e : Error) :
    (k.shutdownChannel e).settings = k.settings ∧
      ((k.shutdownChannel e).state = k.state ∨ (k.shutdownChannel e).state = .channelShutdown) := by
  unfold Control.shutdownChannel
  generalize (if e = .success then .other 0 else e) = e
  simp only
  split
  · simp
  · split <;> simp

/-- Without an open channel nothing happens to the state. -/
theorem shutdownChannel_closed (k : Control) (e : Error) (h : k.state.open = false) :
    (k.shutdownChannel e).state = k.state := by
  unfold Control.shutdownChannel
  simp [h]

theorem Ctl.shutdown (k : Control) (e : Error) : Ctl k (k.shutdownChannel e) := by
  obtain ⟨h1, h2 | h2⟩ := shutdownChannel_cases k e
  · exact .same h2 h1
  · exact .closed h2

theorem onComplete_cases (k : Control) (p : Outgoing) (e : Error) :
    (k.onComplete p e).settings = k.settings ∧
      ((k.onComplete p e).state = k.state ∨ (k.onComplete p e).state = .channelShutdown) := by
  unfold Control.onComplete
  split
  · exact shutdownChannel_cases _ _
  · simp

theorem onCompleteAll_cases (k : Control) (ops : List Op) (e : Error) :
    (k.onCompleteAll ops e).settings = k.settings ∧
      ((k.onCompleteAll ops e).state = k.state ∨ (k.onCompleteAll ops e).state = .channelShutdown) := by
  induction ops generalizing k with
  | nil => simp [Control.onCompleteAll]
  | cons op ops ih =>
    have h1 := ih (k.onComplete op.packet e)
    have h2 := onComplete_cases k op.packet e
    simp only [Control.onCompleteAll, List.foldl_cons] at h1 ⊢
    refine ⟨h1.1.trans h2.1, ?_⟩
    rcases h1.2 with h | h
    · rcases h2.2 with h' | h' <;> simp [h, h']
    · exact .inr h

theorem onCompleteAll_closed (k : Control) (ops : List Op) (e : Error) (h : k.state.open = false) :
    (k.onCompleteAll ops e).state = k.state := by
  induction ops generalizing k with
  | nil => rfl
  | cons op ops ih =>
    have h2 : (k.onComplete op.packet e).state = k.state := by
      unfold Control.onComplete
      split
      · exact shutdownChannel_closed _ _ h
      · rfl
    simp only [Control.onCompleteAll, List.foldl_cons]
    exact (ih (k.onComplete op.packet e) (by rw [h2]; exact h)).trans h2

theorem Ctl.complete (k : Control) (p : Outgoing) (e : Error) : Ctl k (k.onComplete p e) := by
  obtain ⟨h1, h2 | h2⟩ := onComplete_cases k p e
  · exact .same h2 h1
  · exact .closed h2

theorem Ctl.completeAll (k : Control) (ops : List Op) (e : Error) : Ctl k (k.onCompleteAll ops e) := by
  obtain ⟨h1, h2 | h2⟩ := onCompleteAll_cases k ops e
  · exact .same h2 h1
  · exact .closed h2

theorem KMove.ctl {k k' : Control} (h : KMove k k') : Ctl k k' := by
  cases h with
  | shutdown e _ => exact .shutdown _ _
  | giveUp => exact .shutdown _ _
  | emitShutdown e e' _ =>
    obtain ⟨h1, h2 | h2⟩ := shutdownChannel_cases (k.emitFinal e) e'
    · exact .same (h2.trans (emitFinal_state _ _)) (h1.trans (emitFinal_settings _ _))
    · exact .closed h2
  | emitClean e e' h =>
    exact ⟨by simp [State.quiet], by simp, by simp, fun _ => ⟨by simp [h, State.open], emitFinal_settings ..⟩⟩
  | misc _ h1 h2 => exact .same h1 h2
  | desired d => exact .same rfl rfl
  | connecting h _ =>
    refine ⟨fun _ => ?_, by simp, by simp, by simp⟩
    rcases h with h | h <;> simp [h, State.quiet]
  | kickOff e h => exact ⟨fun _ => by simp [h, State.quiet], by simp, by simp, by simp⟩
  | refuse h => exact .closed rfl
  | opened h => exact ⟨by simp [State.quiet], fun _ => .inr h, by simp, by simp⟩
  | settings s h _ => exact ⟨id, .inl, by simp [h], by simp [h]⟩
  | clean e h =>
    refine ⟨by simp [State.quiet], by simp, by simp, fun _ => ⟨?_, rfl⟩⟩
    rcases h with h | h <;> simp [h, State.open]

theorem KMove.ping (k : Control) (t : Nat) : KMove k { k with pingTimeout := t } :=
  .misc _ _ rfl rfl rfl rfl rfl rfl rfl rfl

theorem KMove.sent (cfg : Config) (k : Control) (now : Nat) : KMove k (k.onPingreqSend cfg now) := by
  rw [Control.onPingreqSend]
  exact .ping k _

theorem KMove.resetPing (k : Control) (now : Nat) : KMove k (k.resetPing now) := by
  rw [Control.resetPing]
  exact .misc _ _ rfl rfl rfl rfl rfl rfl rfl rfl

theorem MovesG.k {cfg : Config} {c : Client} {k : Control} (h : KMove c.ctl k) : MovesG g cfg c ⟨c.ops, k⟩ :=
  .single (.control c k h)

/-- Not in the middle of setting up a connection. -/
def Settled (k : Control) : Prop := k.state = .connecting → k.slot = true

theorem Settled.of_ne {k : Control} (h : k.state ≠ .connecting) : Settled k := fun h' => absurd h' h

theorem Settled.open {k : Control} (h : k.state.open = true) : Settled k :=
  .of_ne (by intro h'; simp [h', State.open] at h)

theorem Settled.shutdown {k : Control} (h : Settled k) (e : Error) : Settled (k.shutdownChannel e) := by
  unfold Control.shutdownChannel
  generalize (if e = .success then .other 0 else e) = e
  simp only
  split
  · simpa [Settled] using h
  · split
    · simpa [Settled] using h
    · simp [Settled]

theorem Settled.complete {k : Control} (h : Settled k) (p : Outgoing) (e : Error) : Settled (k.onComplete p e) := by
  unfold Control.onComplete
  split
  · exact h.shutdown _
  · exact h

theorem MovesG.completeOne (cfg : Config) (s : OpState) (k : Control) (p : Outgoing) (e : Error) (h : Settled k) :
    MovesG g cfg ⟨s, k⟩ ⟨s, k.onComplete p e⟩ := by
  unfold Control.onComplete
  split
  · exact .k (c := ⟨s, k⟩) (.shutdown k _ h)
  · exact .nil _

theorem MovesG.completeAll (cfg : Config) (s : OpState) (k : Control) (ops : List Op) (e : Error) (h : Settled k) :
    MovesG g cfg ⟨s, k⟩ ⟨s, k.onCompleteAll ops e⟩ := by
  induction ops generalizing k with
  | nil => exact .nil _
  | cons op ops ih =>
    have := ih (k.onComplete op.packet e) (h.complete _ _)
    simp only [Control.onCompleteAll, List.foldl_cons] at this ⊢
    exact (MovesG.completeOne cfg s k op.packet e h).append this

theorem toStopped_quiet (c : Client) : c.toStopped.ctl.state = .stopped := by
  simp only [Client.toStopped, Control.emitStopped]
  rw [onCompleteAll_closed _ _ _ rfl]

theorem toTerminated_state (c : Client) : c.toTerminated.ctl.state = .terminated := by
  simp only [Client.toTerminated]
  rw [onCompleteAll_closed _ _ _ rfl]

theorem toConnected_ctl (cfg : Config) (c : Client) (now : Nat) :
    (c.toConnected cfg now).ctl.settings = c.ctl.settings ∧
      ((c.toConnected cfg now).ctl.state = .connected ∨ (c.toConnected cfg now).ctl.state = .channelShutdown) := by
  unfold Client.toConnected
  simp only [Control.resetPing]
  generalize (if c.ctl.settings.rejoinedSession = true then [] else lose cfg.offline c.ops.unacked) = lost
  exact onCompleteAll_cases { c.ctl with state := .connected } lost .offlinePolicy

/-! ## Events as moves -/

theorem shutdownWith_moves (cfg : Config) (c : Client) (e : Error) (v : DisconnectView)
    (hs : Settled c.ctl ∨ e = .userStop) : MovesG g cfg c (c.shutdownWith e v) := by
  unfold Client.shutdownWith
  split
  · rename_i h
    refine .cons (.push c (.disconnect v) (.inr (.inr rfl)) ?_ (by simp [isConnect])) (.k (.clean _ e h))
    rcases h with h | h <;> simp [h]
  · rcases hs with hs | rfl
    · exact .k (.shutdown _ _ hs)
    · exact .k (.giveUp _)

theorem shutdownClean_moves (cfg : Config) (c : Client) (e : Error) (reason : Nat) (hs : Settled c.ctl) :
    MovesG g cfg c (c.shutdownClean e reason) := by
  unfold Client.shutdownClean
  split
  · exact .k (.shutdown _ _ hs)
  · exact shutdownWith_moves cfg c e _ (.inl hs)

theorem toConnecting_moves (cfg : Config) (c : Client) (e : Option Error)
    (h : c.ctl.state = .stopped ∨ c.ctl.state = .pendingReconnect) (hd : c.ctl.desired = .connected) :
    MovesG g cfg c (c.toConnecting e) := by
  unfold Client.toConnecting
  split
  · exact .k (.connecting _ h hd)
  · exact .cons (.control c _ (.connecting _ h hd)) (.k (.kickOff _ _ rfl rfl))

theorem aliasFits_connectView (c : ConnectView) (b : SessionBehavior) (h : Bool) (i : Option Nat) (s : Settings) :
    AliasFits (connectView c b h i s).1 := by
  simp only [AliasFits, connectView, Settings.reset, Settings.set]
  repeat' split
  all_goals simp

theorem aliasFits_set {α} {s : Settings} {o : Option α} {f : Settings → α → Settings} (h : AliasFits s)
    (hf : ∀ x, o = some x → AliasFits (f s x)) : AliasFits (s.set o f) := by
  cases o with
  | none => exact h
  | some x => exact hf x rfl

theorem aliasFits_applyConnack {s : Settings} {v : ConnackView} (hv : inRange (.connack v) = true) (h : AliasFits s) :
    AliasFits (s.applyConnack v) := by
  simp only [inRange, Bool.and_eq_true] at hv
  have hv := hv.1.2
  have h1 := aliasFits_set (o := v.sessionExpiry) (f := fun s x => { s with sessionExpiry := x }) h fun _ _ => h
  have h2 := aliasFits_set (o := v.receiveMaximum) (f := fun s x => { s with receiveMaximumFromServer := x }) h1
    fun _ _ => h1
  have h3 := aliasFits_set (o := v.maximumQos)
    (f := fun s q => if q < s.maximumQos then { s with maximumQos := q } else s) h2
    fun _ _ => by split <;> exact h2
  have h4 := aliasFits_set (o := v.retainAvailable) (f := fun s x => { s with retainAvailable := x }) h3 fun _ _ => h3
  have h5 := aliasFits_set (o := v.maximumPacketSize) (f := fun s x => { s with maximumPacketSizeToServer := x }) h4
    fun _ _ => h4
  have h6 := aliasFits_set (o := v.topicAliasMaximum) (f := fun s x => { s with topicAliasMaximumToServer := x }) h5
    fun x hx => by
      rw [hx] at hv
      simp only [Option.all_some, decide_eq_true_eq] at hv
      exact hv
  have h7 := aliasFits_set (o := v.wildcardSubscriptions) (f := fun s x => { s with wildcardSubscriptions := x }) h6
    fun _ _ => h6
  have h8 := aliasFits_set (o := v.subscriptionIdentifiers) (f := fun s x => { s with subscriptionIdentifiers := x }) h7
    fun _ _ => h7
  have h9 := aliasFits_set (o := v.sharedSubscriptions) (f := fun s x => { s with sharedSubscriptions := x }) h8
    fun _ _ => h8
  have h10 := aliasFits_set (o := v.serverKeepAlive) (f := fun s x => { s with serverKeepAlive := x }) h9 fun _ _ => h9
  have h11 := aliasFits_set (o := v.assignedClientId) (f := fun s x => s.applyClientId x) h10
    fun _ _ => by simp only [Settings.applyClientId]; split <;> exact h10
  exact h11

theorem reset_id (s : Settings) (c : ConnectView) : (s.reset c).clientId = s.clientId := by
  unfold Settings.reset Settings.set
  cases c.sessionExpiry <;> cases c.topicAliasMaximum <;> rfl

theorem connectView_id (stored : ConnectView) (b : SessionBehavior) (hc : Bool) (a : Option Nat) (s : Settings) :
    IdStays s (connectView stored b hc a s).1 := by
  intro _
  unfold connectView
  exact reset_id ..

theorem applyConnack_id (s : Settings) (v : ConnackView) : IdStays s (s.applyConnack v) := by
  intro hs
  have hlen : s.clientId.length ≠ 0 := by simpa using hs
  have set_id : ∀ {α : Type} (s : Settings) (o : Option α) (f : Settings → α → Settings),
      (∀ s x, (f s x).clientId = s.clientId) → (s.set o f).clientId = s.clientId := by
    intro α s o f hf
    unfold Settings.set
    split
    · exact hf ..
    · rfl
  unfold Settings.applyConnack
  simp only
  have last : ∀ s : Settings, s.clientId.length ≠ 0 →
      (s.set v.assignedClientId fun s x => s.applyClientId x).clientId = s.clientId := by
    intro s hs
    unfold Settings.set
    split
    · simp only [Settings.applyClientId, hs, if_false]
    · rfl
  have h1 : ∀ s' : Settings, s'.clientId = s.clientId →
      (s'.set v.assignedClientId fun s x => s.applyClientId x).clientId = s.clientId := by
    intro s' h
    rw [last s' (by rw [h]; exact hlen), h]
  refine h1 _ ?_
  repeat rw [set_id]
  all_goals intros; first | rfl | (split <;> rfl)

theorem connectView_made {cfg : Config} {ops : OpState} {k : Control} {v : ConnectView} (hk : k.state = .mqttConnect)
    (h : newConnect (connectView cfg.connect cfg.session k.hasConnected cfg.inboundAliases k.settings).2 = some v) :
    Made cfg ⟨ops, { k with settings :=
      (connectView cfg.connect cfg.session k.hasConnected cfg.inboundAliases k.settings).1 }⟩ (.connect v) := by
  refine ⟨hk, v, rfl, ?_⟩
  rw [← h]
  unfold connectView
  simp only
  cases cfg.inboundAliases <;> rfl

theorem toMqttConnect_moves {cfg : Config} {c c' : Client} {now : Nat} (hd : c.ctl.desired = .connected)
    (h : ({ c with ctl := { c.ctl with slot := true, channel := true } } : Client).toMqttConnect cfg now = .ok c') :
    MovesG g cfg c c' := by
  unfold Client.toMqttConnect at h
  split at h
  · cases h
  · rename_i hst
    have hst : c.ctl.state = .connecting := by simpa using hst
    split at h
    · cases h
    · simp only at h
      split at h
      · cases h
        exact .cons (.control c _ (.opened _ hst hd)) (.k (.shutdown _ _ (by simp)))
      · have m1 := MoveG.fresh (g := g) (cfg := cfg) c (by simp [hst, State.quiet])
        split at h
        · cases h
          exact .cons m1 (.cons (.control _ _ (.opened _ hst hd)) (.cons (.control _ _ (.settings _ _ rfl (fun _ => aliasFits_connectView ..) (connectView_id _ _ _ _ _)))
            (.k (.shutdown _ _ (by simp)))))
        · rename_i hv
          cases h
          refine .cons m1 (.cons (.control _ _ (.opened _ hst hd)) (.cons (.control _ _ (.settings _ _ rfl (fun _ => aliasFits_connectView ..) (connectView_id _ _ _ _ _)))
            (.cons (.push _ _ (.inr (.inl rfl)) ?_ fun _ => connectView_made rfl hv) (.k (.misc _ _ rfl rfl rfl rfl rfl rfl rfl rfl)))))
          simp

theorem shutdownFinal_moves (cfg : Config) (c : Client) (e : Error) : MovesG g cfg c (c.shutdownFinal cfg e) := by
  unfold Client.shutdownFinal
  simp only
  split
  · exact .single (.disconnection c e _ (.inr rfl))
  · exact .cons (.disconnection c e _ (.inl rfl)) (.single (.reset _ (.inl rfl)))

theorem setup_moves {cfg : Config} {c c' : Client} {err : Option Error} {now : Nat}
    (h : c.setup cfg err now = .ok c') : MovesG g cfg c c' := by
  unfold Client.setup at h
  split at h
  · cases h; exact shutdownFinal_moves cfg c _
  · split at h
    · cases h
    · rename_i hst
      have hst : c.ctl.state = .connecting := by simpa using hst
      split at h
      · rename_i hd
        cases h
        exact .k (.refuse _ hst hd)
      · rename_i hd
        exact toMqttConnect_moves (by simpa using hd) h

theorem onConnack_moves {cfg : Config} {c c' : Client} {v : ConnackView} {now : Nat}
    (hst : c.ctl.state = .mqttConnect) (hv : inRange (.connack v) = true) (h : c.onConnack cfg v now = .ok c') :
    MovesG g cfg c c' := by
  unfold Client.onConnack at h
  have hcon : ∀ {k k' : Control} {e : Error}, k.emitFinalConnack e = .ok k' → k' = k.emitFinal e := by
    intro k k' e h
    unfold Control.emitFinalConnack at h
    split at h
    · cases h
    · cases h; rfl
  split at h
  · split at h
    · cases h
    · rename_i k hk
      cases h
      rw [hcon hk]
      exact .k (.emitShutdown _ _ _ (by simp [hst, State.open]))
  · simp only at h
    split at h
    · split at h
      · cases h
      · rename_i k hk
        cases h
        rw [hcon hk]
        exact .cons (.control c _ (.settings _ _ hst (aliasFits_applyConnack hv) (applyConnack_id _ _))) (.k (.emitShutdown _ _ _ (by simp [hst, State.open])))
    · cases h
      exact .single (.connection c (c.ctl.settings.applyConnack v) now hst (aliasFits_applyConnack hv) (applyConnack_id _ _))

/-! ### The service loop -/

theorem invalid_congr {cfg : Config} {c c' : Client} (h : c.ctl = c'.ctl) (p : Outgoing) :
    c.invalid cfg p = c'.invalid cfg p := by
  unfold Client.invalid
  rw [h]

theorem invalid_connect {cfg : Config} {c : Client} {p : Outgoing} (h : c.ctl.state = .mqttConnect)
    (hp : isConnect p = true) : c.invalid cfg p = none := by
  cases p <;> simp [isConnect] at hp
  simp [Client.invalid, Control.settingsValid, h]

/-- The states and queue heads with which an operation can be taken. -/
def CanTake (st : State) (q : List Op) : Prop :=
  st = .connected ∨
    ∃ op rest, q = op :: rest ∧
      (st = .mqttConnect ∧ isConnect op.packet = true ∨ st = .cleanDisconnect ∧ isDisconnect op.packet = true)

theorem invalid_validation {cfg : Config} {c : Client} {p : Outgoing} {e : Error} (h : c.invalid cfg p = some e) :
    e.validation = true := by
  unfold Client.invalid at h
  generalize (c.ctl.settingsValid && _) = b at h
  cases b with
  | true => cases h; rfl
  | false =>
    rw [if_neg (by simp)] at h
    cases p with
    | publish v => simp only at h; split at h <;> cases h; rfl
    | disconnect v => simp only at h; split at h <;> cases h; rfl
    | _ => cases h

/-- Flow control lets the head of the queue pass. -/
def Flows (c : Client) (q : List Op) : Prop :=
  ∀ op rest, q = op :: rest → isQos1 op.packet = true → 0 < c.ops.tokens ∨ refused c.ops.log = true

theorem takeNext_moves {cfg : Config} {env : Env} {q : List Op} {c c' : Client} {t : Taken}
    (hq : c.ops.queued = q) (hc : c.ops.current = none) (hcan : CanTake c.ctl.state q) (hflow : Flows c q)
    (h : c.takeNext cfg env q = (c', t)) :
    (∀ op, t ≠ .next op) ∧ MovesG g cfg c c' ∨
    ∃ op rest c1, t = .next op ∧ MovesG g cfg c c1 ∧ c1.ops.queued = op :: rest ∧ c1.ops.current = none ∧
      c1.invalid cfg op.packet = none ∧ c' = { c1 with ops := { c1.ops with queued := rest } } ∧
      (c1.ctl.state = .connected ∨ c1.ctl.state = .mqttConnect ∧ isConnect op.packet = true ∨
        c1.ctl.state = .cleanDisconnect ∧ isDisconnect op.packet = true) ∧
      (isQos1 op.packet = true → 0 < c1.ops.tokens ∨ refused c1.ops.log = true) := by
  induction q generalizing c with
  | nil =>
    simp only [Client.takeNext] at h
    cases h
    exact .inl ⟨by simp, .nil _⟩
  | cons op rest ih =>
    rw [Client.takeNext] at h
    split at h
    · cases h
      exact .inl ⟨by simp, .nil _⟩
    · simp only at h
      split at h
      · rename_i hinv
        cases h
        refine .inr ⟨op, rest, c, rfl, .nil _, hq, hc, ?_, rfl, ?_, hflow op rest rfl⟩
        · exact (invalid_congr (c' := { c with ops := { c.ops with queued := rest } }) rfl _).trans hinv
        · rcases hcan with h | ⟨o, r, h, h'⟩
          · exact .inl h
          · cases h; exact .inr h'
      · rename_i e hinv
        have m1 : MoveG g cfg c ⟨({ c.ops with queued := rest } : OpState).complete op e none, c.ctl⟩ :=
          .invalid c op rest e hq
            ((invalid_congr (c' := { c with ops := { c.ops with queued := rest } }) rfl _).trans hinv)
        split at h
        · cases h
          have hset : Settled c.ctl := by
            rcases hcan with h | ⟨o, r, _, h | h⟩
            · exact .of_ne (by simp [h])
            · exact .of_ne (by simp [h.1])
            · exact .of_ne (by simp [h.1])
          exact .inl ⟨by simp, .cons m1 (.completeOne _ _ _ _ _ hset)⟩
        · rename_i hd
          have hctl : c.ctl.onComplete op.packet e = c.ctl := by simp [Control.onComplete, hd]
          have hst : c.ctl.state = .connected := by
            rcases hcan with h | ⟨o, r, h, h' | h'⟩
            · exact h
            · cases h
              rw [invalid_connect (cfg := cfg) (c := { c with ops := { c.ops with queued := rest } }) h'.1 h'.2] at hinv
              cases hinv
            · cases h
              exact absurd h'.2 hd
          have h2 := ih (c := ({ c with ops := { c.ops with queued := rest } } : Client).complete op e none) rfl hc
            (by rw [Client.complete]; simp only [hctl]; exact .inl hst)
            (fun _ _ _ _ => .inr (by
              simp [Client.complete, OpState.complete, refused, refusedOne, invalid_validation hinv])) h
          have hmid : ({ c with ops := { c.ops with queued := rest } } : Client).complete op e none =
              ⟨({ c.ops with queued := rest } : OpState).complete op e none, c.ctl⟩ := by
            rw [Client.complete]; simp only [hctl]
          rw [hmid] at h2
          rcases h2 with ⟨h3, h4⟩ | ⟨o, r, c1, h3, h4, h5⟩
          · exact .inl ⟨h3, .cons m1 h4⟩
          · exact .inr ⟨o, r, c1, h3, .cons m1 h4, h5⟩

/-- `load` changes nothing when there is a current operation. -/
theorem load_moves {cfg : Config} {env : Env} {c c' : Client} {e : Option Error}
    (hcan : c.ops.current = none → CanTake c.ctl.state c.ops.queued ∧ Flows c c.ops.queued)
    (h : c.load cfg env = .ok (c', e)) : MovesG g cfg c c' := by
  unfold Client.load at h
  split at h
  · cases h; exact .nil _
  · rename_i hc
    have hc : c.ops.current = none := by simpa using hc
    rcases hx : c.takeNext cfg env c.ops.queued with ⟨c2, t⟩
    rw [hx] at h
    have h1 := takeNext_moves (g := g) rfl hc (hcan hc).1 (hcan hc).2 hx
    cases t with
    | nothing =>
      cases h
      rcases h1 with h1 | ⟨o, r, c1, h1, _⟩
      · exact h1.2
      · cases h1
    | failed =>
      cases h
      rcases h1 with h1 | ⟨o, r, c1, h1, _⟩
      · exact h1.2
      · cases h1
    | next op =>
      rcases h1 with h1 | ⟨o, r, c1, h1, h2, h3, h4, h5, h6, h7, h8⟩
      · exact absurd rfl (h1.1 op)
      · cases h1
        simp only at h
        split at h
        · cases h
        · rename_i s ok hs
          cases h
          subst h6
          exact h2.snoc (.start c1 op r s ok h3 h4 h5 h7 hs h8)

theorem serviceTime_take {cfg : Config} {c : Client} {a b now : Nat} (h : c.serviceTime cfg a b now = some now) :
    c.ops.current = none → CanTake c.ctl.state c.ops.queued ∧ Flows c c.ops.queued := by
  intro hc
  unfold Client.serviceTime at h
  split at h
  · cases h
  · split at h
    · rename_i h1
      have h := Option.some.inj h
      rw [h] at h1
      exact absurd h1 (Nat.lt_irrefl _)
    · rw [if_neg (by rw [hc]; simp)] at h
      split at h
      · cases h
      · rename_i hp
        have hp : c.pendingWork = true := by simpa using hp
        unfold Client.pendingWork at hp
        split at hp
        · cases hp
        · rename_i op rest hq
          rw [hq] at h
          split at hp
          · rename_i hs
            refine ⟨.inr ⟨op, rest, hq, .inl ⟨hs, hp⟩⟩, ?_⟩
            intro o' r' ho hqos
            rw [hq] at ho
            cases ho
            revert hp hqos
            cases op.packet <;> simp [isConnect, isQos1]
          · rename_i hs
            refine ⟨.inr ⟨op, rest, hq, .inr ⟨hs, hp⟩⟩, ?_⟩
            intro o' r' ho hqos
            rw [hq] at ho
            cases ho
            revert hp hqos
            cases op.packet <;> simp [isDisconnect, isQos1]
          · rename_i hs
            refine ⟨.inl hs, ?_⟩
            intro o' r' ho hqos
            rw [hq] at ho
            cases ho
            have hpub : isPublish op.packet = true := by
              revert hqos
              cases op.packet <;> simp [isPublish, isQos1]
            simp only [Client.operationTime, hs, flowTime, hpub, hqos, Bool.not_true, Bool.false_eq_true, if_false] at h
            split at h
            · rename_i hw
              simp only [Bool.and_eq_true, decide_eq_true_eq] at hw
              have := Option.some.inj h
              omega
            · split at h
              · rename_i ht; exact .inl ht
              · cases h
          · cases hp

theorem encodeToBuffer_finished {e e' : Encoder} {buf buf' : Buf}
    (h : e.encodeToBuffer buf = (.finished, buf', e')) : e'.steps = [] := by
  unfold Encoder.encodeToBuffer at h
  split at h <;> cases h
  rfl

@[simp] theorem onPingreqSend_state (cfg : Config) (k : Control) (now : Nat) :
    (k.onPingreqSend cfg now).state = k.state := by
  rw [Control.onPingreqSend]
@[simp] theorem onPingreqSend_settings (cfg : Config) (k : Control) (now : Nat) :
    (k.onPingreqSend cfg now).settings = k.settings := by
  rw [Control.onPingreqSend]
@[simp] theorem resetPing_state (k : Control) (now : Nat) : (k.resetPing now).state = k.state := by
  rw [Control.resetPing]
@[simp] theorem resetPing_settings (k : Control) (now : Nat) : (k.resetPing now).settings = k.settings := by
  rw [Control.resetPing]

theorem serviceLoop_moves {cfg : Config} {env : Env} {fuel k : Nat} {buf : Buf} {c : Client}
    {r : Client × Buf × Option Error}
    (hcan : c.ops.current = none → CanTake c.ctl.state c.ops.queued ∧ Flows c c.ops.queued)
    (h : c.serviceLoop cfg env fuel k buf = .ok r) (hg : ∀ k, g.clock (env.loopNow k)) : MovesG g cfg c r.1 := by
  induction fuel generalizing c k buf with
  | zero => simp only [Client.serviceLoop] at h; cases h; exact .nil _
  | succ fuel ih =>
    rw [Client.serviceLoop] at h
    split at h
    · cases h
    · rename_i c1 e hl
      cases h
      exact load_moves hcan hl
    · rename_i c1 hl
      have m1 := load_moves (g := g) hcan hl
      split at h
      · cases h; exact m1
      · rename_i op hcur
        split at h
        · rename_i buf2 enc henc
          cases h
          exact m1.snoc (.encode c1 op buf buf2 enc _ hcur henc)
        · rename_i buf2 enc henc
          have m2 := m1.snoc (.encode c1 op buf buf2 enc _ hcur henc)
          split at h
          · cases h
          · rename_i c2 hf
            unfold Client.finish at hf
            split at hf
            · cases hf
            · rename_i s hs
              have m3 := m2.snoc (.finish _ op (env.loopNow k) s hcur (encodeToBuffer_finished henc) hs (hg k))
              have m4 : MovesG g cfg c c2 := by
                cases hf
                simp only
                split
                · exact m3.append (.k (.sent ..))
                · exact m3
              split at h
              · rename_i hserve
                exact m4.append (ih (serviceTime_take hserve) h)
              · cases h; exact m4

theorem serviceOps_moves {cfg : Config} {env : Env} {c : Client} {r : Client × Option Error}
    (h : c.serviceOps cfg env = .ok r) (hg : ∀ k, g.clock (env.loopNow k)) : MovesG g cfg c r.1 := by
  unfold Client.serviceOps at h
  split at h
  · cases h; exact .nil _
  · rename_i hs
    have hs := serviceTime_take (by simpa using hs)
    split at h
    · cases h; exact .nil _
    · split at h
      · cases h
      · rename_i c1 b e hl
        cases h
        exact serviceLoop_moves hs hl hg
      · rename_i c1 b hl
        have m1 := serviceLoop_moves (g := g) hs hl hg
        split at h
        · cases h; exact m1
        · split at h
          · cases h
            exact m1.snoc (.unwrite c1)
          · cases h
            exact m1.snoc (.write c1 _)

theorem takeNext_state {cfg : Config} {env : Env} (q : List Op) (c : Client) :
    (c.takeNext cfg env q).1.ctl.state = c.ctl.state ∨ (c.takeNext cfg env q).1.ctl.state = .channelShutdown := by
  induction q generalizing c with
  | nil => exact .inl rfl
  | cons op rest ih =>
    rw [Client.takeNext]
    split
    · exact .inl rfl
    · simp only
      split
      · exact .inl rfl
      · rename_i e _
        have h1 := (onComplete_cases c.ctl op.packet e).2
        split
        · exact h1
        · rename_i hd
          have := ih (({ c with ops := { c.ops with queued := rest } } : Client).complete op e none)
          simpa [Client.complete, Control.onComplete, hd] using this

theorem load_state {cfg : Config} {env : Env} {c c' : Client} {e : Option Error} (h : c.load cfg env = .ok (c', e)) :
    c'.ctl.state = c.ctl.state ∨ c'.ctl.state = .channelShutdown := by
  unfold Client.load at h
  split at h
  · cases h; exact .inl rfl
  · have h1 := takeNext_state (cfg := cfg) (env := env) c.ops.queued c
    rcases hx : c.takeNext cfg env c.ops.queued with ⟨c2, t⟩
    rw [hx] at h h1
    cases t with
    | nothing => cases h; exact h1
    | failed => cases h; exact h1
    | next op =>
      simp only at h
      split at h <;> cases h
      exact h1

theorem serviceLoop_state {cfg : Config} {env : Env} {fuel k : Nat} {buf : Buf} {c : Client}
    {r : Client × Buf × Option Error} (h : c.serviceLoop cfg env fuel k buf = .ok r) :
    r.1.ctl.state = c.ctl.state ∨ r.1.ctl.state = .channelShutdown := by
  induction fuel generalizing c k buf with
  | zero => simp only [Client.serviceLoop] at h; cases h; exact .inl rfl
  | succ fuel ih =>
    rw [Client.serviceLoop] at h
    split at h
    · cases h
    · rename_i c1 e hl; cases h; exact load_state hl
    · rename_i c1 hl
      have h1 := load_state hl
      split at h
      · cases h; exact h1
      · split at h
        · cases h; exact h1
        · split at h
          · cases h
          · rename_i c2 hf
            have h2 : c2.ctl.state = c1.ctl.state := by
              unfold Client.finish at hf
              split at hf
              · cases hf
              · cases hf
                simp only
                split <;> simp
            split at h
            · have := ih h
              rw [h2] at this
              rcases this with this | this
              · rw [this]; exact h1
              · exact .inr this
            · cases h
              rw [h2]
              exact h1

theorem serviceOps_state {cfg : Config} {env : Env} {c : Client} {r : Client × Option Error}
    (h : c.serviceOps cfg env = .ok r) : r.1.ctl.state = c.ctl.state ∨ r.1.ctl.state = .channelShutdown := by
  unfold Client.serviceOps at h
  split at h
  · cases h; exact .inl rfl
  · split at h
    · cases h; exact .inl rfl
    · split at h
      · cases h
      · rename_i hl; cases h; exact serviceLoop_state hl
      · rename_i hl
        have h1 := serviceLoop_state hl
        split at h
        · cases h; exact h1
        · split at h <;> cases h <;> exact h1

theorem serviceOps_settled {cfg : Config} {env : Env} {c : Client} {r : Client × Option Error}
    (h : c.serviceOps cfg env = .ok r) (hc : c.ctl.state ≠ .connecting) : Settled r.1.ctl := by
  apply Settled.of_ne
  rcases serviceOps_state h with h | h <;> rw [h]
  · exact hc
  · simp

theorem afterService_moves (cfg : Config) (r : Client × Option Error) (h : Settled r.1.ctl) :
    MovesG g cfg r.1 (Client.afterService r).1 := by
  unfold Client.afterService
  split
  · exact .nil _
  · exact .k (.shutdown _ _ h)

theorem takeUid_uid {uid : Nat} {ops rest : List Op} {op : Op} (h : takeUid uid ops = some (op, rest)) :
    op.uid = uid := by
  induction ops generalizing rest with
  | nil => simp [takeUid] at h
  | cons o ops ih =>
    rw [takeUid] at h
    split at h
    · cases h; assumption
    · cases hx : takeUid uid ops with
      | none => simp [hx] at h
      | some r => rcases r with ⟨o', r'⟩; simp [hx] at h; exact ih (by rw [hx, ← h.1])

theorem takeUid_find {uid : Nat} {ops : List Op} :
    ops.find? (·.uid == uid) = (takeUid uid ops).map (·.1) := by
  induction ops with
  | nil => rfl
  | cons o ops ih =>
    rw [takeUid, List.find?_cons]
    by_cases h : o.uid = uid
    · simp [h]
    · have : (o.uid == uid) = false := by simpa using h
      simp only [this, h, if_false, ih]
      cases takeUid uid ops <;> simp

theorem earliest_mem {ops : List Op} {us : List Nat} {u : Nat} (h : earliest ops us = some u) : u ∈ us := by
  induction us generalizing u with
  | nil => cases h
  | cons x us ih =>
    rw [earliest] at h
    split at h
    · cases h; simp
    · rename_i y hy
      split at h
      · cases h; exact List.mem_cons_of_mem _ (ih hy)
      · cases h; simp

/-- Completing an operation takes it off the heap as well. -/
theorem timeout_eq (s : OpState) (op : Op) (rest : List Op) (t : List (Nat × Nat)) (e : Error) (a : Option Received) :
    ({ s with timeouts := s.timeouts.filter (· != op.uid), unacked := rest, table := t } : OpState).complete op e a =
      ({ s with unacked := rest, table := t } : OpState).complete op e a := by
  simp [OpState.complete]

theorem checkTimeouts_moves {cfg : Config} {now fuel : Nat} {c : Client} {s : OpState}
    (h : checkTimeouts now fuel c.ops = .ok s) (hg : g.clock now) : MovesG g cfg c ⟨s, c.ctl⟩ := by
  induction fuel generalizing c with
  | zero => simp only [checkTimeouts] at h; cases h; exact .nil _
  | succ fuel ih =>
    rw [checkTimeouts] at h
    split at h
    · cases h; exact .nil _
    · rename_i uid huid
      split at h
      · cases h
      · rename_i op hop
        split at h
        · cases h; exact .nil _
        · simp only at h
          have hop' : ∃ rest, takeUid uid c.ops.unacked = some (op, rest) := by
            rw [takeUid_find] at hop
            cases ht : takeUid uid c.ops.unacked with
            | none => rw [ht] at hop; cases hop
            | some r => rw [ht] at hop; cases hop; exact ⟨r.2, rfl⟩
          split at h
          · rename_i hn
            cases h
            exact .single (.forget c uid (hop'.elim fun rest hr => ⟨op, rest, hr, hn⟩))
          · rename_i u hu
            split at h
            · cases h
            · rename_i s1 hs1
              unfold OpState.resolve at hs1
              split at hs1
              · cases hs1
              · rename_i op' rest hr
                cases hs1
                have ho : op' = op := by
                  rw [takeUid_find] at hop
                  simp only at hr
                  rw [hr] at hop
                  simpa using hop
                subst ho
                have hu' := takeUid_uid hr
                subst hu'
                refine .cons (.timeout c op' rest hr (by rw [hu]; rfl) ⟨now, hg, by omega⟩ (earliest_mem huid))
                  (ih (c := ⟨_, c.ctl⟩) ?_)
                simp only
                rw [← timeout_eq]
                exact h

theorem clientCheckTimeouts_moves {cfg : Config} {now : Nat} {c c' : Client}
    (h : c.checkTimeouts now = .ok c') (hg : g.clock now) : MovesG g cfg c c' := by
  unfold Client.checkTimeouts at h
  split at h
  · cases h
  · rename_i s hs
    cases h
    exact checkTimeouts_moves hs hg

theorem emitShutdown_moves (cfg : Config) (c : Client) (e e' : Error) (h : c.ctl.state.open = true) :
    MovesG g cfg c { c with ctl := (c.ctl.emitFinal e).shutdownChannel e' } :=
  .k (.emitShutdown _ _ _ h)

theorem emitClean_moves (cfg : Config) (c : Client) (e e' : Error) (reason : Nat) (h : c.ctl.state = .connected) :
    MovesG g cfg c (({ c with ctl := c.ctl.emitFinal e } : Client).shutdownClean e' reason) := by
  unfold Client.shutdownClean
  split
  · exact .k (.emitShutdown _ _ _ (by simp [h, State.open]))
  · unfold Client.shutdownWith
    rw [if_pos (.inl (by simp [h]))]
    exact .cons (.push c (.disconnect _) (.inr (.inr rfl)) (by simp [h]) (by simp [isConnect])) (.k (.emitClean _ e e' h))

theorem timeouts_state {now : Nat} {c c' : Client} (h : c.checkTimeouts now = .ok c') : c'.ctl = c.ctl := by
  unfold Client.checkTimeouts at h
  split at h
  · cases h
  · cases h; rfl

theorem service_moves {cfg : Config} {env : Env} {c c' : Client} (h : c.service cfg env = .ok c')
    (hn : g.clock env.now) (hg : ∀ k, g.clock (env.loopNow k)) (hend : c'.ctl.state = .terminated → g.ends) :
    MovesG g cfg c c' := by
  unfold Client.service at h
  split at h
  · rename_i hst
    split at h
    · rename_i hd; cases h; exact toConnecting_moves cfg c _ (.inl hst) hd
    · rename_i hd; cases h; exact .single (.terminate c hst hd (hend (toTerminated_state c)))
    · cases h; exact .nil _
  · rename_i hst
    have ho : c.ctl.state.open = true := by simp [hst, State.open]
    unfold Client.serviceMqttConnect at h
    split at h
    · cases h; exact emitShutdown_moves _ _ _ _ ho
    · split at h
      · cases h; exact emitShutdown_moves _ _ _ _ ho
      · split at h
        · cases h
        · rename_i r hr
          cases h
          exact (serviceOps_moves hr hg).append (afterService_moves cfg r (serviceOps_settled hr (by simp [hst])))
  · rename_i hst
    unfold Client.serviceConnected at h
    split at h
    · cases h; exact emitShutdown_moves _ _ _ _ (by simp [hst, State.open])
    · split at h
      · cases h
        exact emitClean_moves _ _ _ _ _ hst
      · simp only at h
        split at h
        · cases h
        · rename_i c1 hc1
          have hst' : c1.ctl.state ≠ .connecting := by
            rw [timeouts_state hc1]
            split <;> simp [Client.queuePing, hst]
          have hst : c.ctl.state ≠ .terminated := by rw [hst]; simp
          have m1 : MovesG g cfg c (if env.now ≥ c.ctl.nextPing then c.queuePing env.queueNow else c) := by
            split
            · exact .cons (.push c .pingreq (.inl rfl) hst (by simp [isConnect])) (.cons (.pinged _ c.ops.nextUid) (.k (.resetPing ..)))
            · exact .nil _
          have m2 := m1.append (clientCheckTimeouts_moves hc1 hn)
          split at h
          · cases h
          · rename_i r hr
            cases h
            exact m2.append ((serviceOps_moves hr hg).append (afterService_moves cfg r (serviceOps_settled hr hst')))
  · rename_i hst
    unfold Client.serviceCleanDisconnect at h
    split at h
    · cases h
    · rename_i r hr
      have m1 := (serviceOps_moves hr hg).append (afterService_moves cfg r (serviceOps_settled hr (by simp [hst])))
      split at h
      · rename_i c1 hc1
        cases h
        rw [hc1] at m1
        exact m1
      · rename_i c1 hc1
        rw [hc1] at m1
        exact m1.append (clientCheckTimeouts_moves h hn)
  · rename_i hst
    split at h
    · cases h; exact .single (.reset c (.inr hst))
    · rename_i hd
      split at h
      · cases h; exact toConnecting_moves cfg c _ (.inr hst) (by simpa using hd)
      · cases h; exact .nil _
  · cases h; exact .nil _

theorem writeComplete_moves (cfg : Config) (c : Client) (e : Error) (hs : c.ctl.slot = true) :
    MovesG g cfg c (c.writeComplete e) := by
  unfold Client.writeComplete
  simp only
  refine .cons (.written c e) ?_
  split
  · exact .cons (.control _ _ (.shutdown _ e fun _ => hs)) (.completeAll _ _ _ _ _ (Settled.shutdown (fun _ => hs) _))
  · exact .completeAll _ _ _ _ _ fun _ => hs

/-- The packet id of an acknowledgement. -/
def ackId : Received → Option Nat
  | .puback v => some v.packetId
  | .suback v => some v.packetId
  | .unsuback v => some v.packetId
  | _ => none

theorem answers_of_count {ack : Received} {p : Outgoing} (hid : ackId ack = some (packetId p))
    (h : countMatches p ack = .ok true) : Answers ack p := by
  cases ack with
  | puback v => simp only [ackId, Option.some.injEq] at hid; exact hid.symm
  | suback v =>
    simp only [ackId, Option.some.injEq] at hid
    cases p <;> simp only [countMatches, Except.ok.injEq, decide_eq_true_eq, reduceCtorEq] at h
    exact ⟨hid.symm, h⟩
  | unsuback v =>
    simp only [ackId, Option.some.injEq] at hid
    cases p <;> simp only [countMatches, Except.ok.injEq, decide_eq_true_eq, reduceCtorEq] at h
    exact ⟨hid.symm, h⟩
  | _ => cases hid

theorem handleAck_moves {cfg : Config} {c c' : Client} {id : Nat} {ack : Received} (hid : ackId ack = some id)
    (hs : Settled c.ctl) (h : c.handleAck id ack = .ok c') : MovesG g cfg c c' := by
  unfold Client.handleAck at h
  split at h
  · cases h; exact .nil _
  · rename_i uid huid
    split at h
    · cases h
    · rename_i op rest ht
      simp only at h
      split at h
      · cases h
      · rename_i hcm
        cases h
        exact .cons (.ack c id uid op rest .success (some ack) huid ht (fun hp r hr => by
          cases hr; exact answers_of_count (by rw [hp]; exact hid) hcm) (by decide)) (.completeOne _ _ _ _ _ hs)
      · have m : MovesG g cfg c (({ c with ops := { c.ops with unacked := rest, table := c.ops.table.del id } } :
            Client).complete op .protocolError none) :=
          .cons (.ack c id uid op rest .protocolError none huid ht (fun _ _ h => by cases h) (by decide))
            (.completeOne _ _ _ _ _ hs)
        split at h
        · cases h
          exact m.append (shutdownClean_moves _ _ _ _ (hs.complete _ _))
        · cases h
          exact m.append (.k (.shutdown _ _ (hs.complete _ _)))

theorem onPacketConnected_moves {cfg : Config} {c c' : Client} {p : Received} {acquire : Bool}
    (hst : c.ctl.state = .connected ∨ c.ctl.state = .cleanDisconnect)
    (h : c.onPacketConnected p acquire = .ok c') : MovesG g cfg c c' := by
  have ho : c.ctl.state.open = true := by rcases hst with h | h <;> simp [h, State.open]
  unfold Client.onPacketConnected at h
  split at h
  · cases h; exact .k (.misc _ _ rfl rfl rfl rfl rfl rfl rfl rfl)
  · split at h
    · cases h
    · rename_i k hk
      unfold Control.emitFinalDisconnect at hk
      split at hk
      · cases hk
      · cases hk; cases h; exact emitShutdown_moves _ _ _ _ ho
  · exact handleAck_moves rfl (.open ho) h
  · exact handleAck_moves rfl (.open ho) h
  · cases h; exact .single (.publish c _ _ hst)
  · exact .cons (.token c _ hst) (handleAck_moves rfl (.open ho) h)
  · cases h; exact .nil _

theorem onPacket_moves {cfg : Config} {c c' : Client} {p : Received} {acquire : Bool} {now : Nat}
    (hp : inRange p = true) (h : c.onPacket cfg p acquire now = .ok c') : MovesG g cfg c c' := by
  unfold Client.onPacket at h
  split at h
  · rename_i hst
    split at h
    · exact onConnack_moves hst hp h
    · cases h; exact shutdownClean_moves _ _ _ _ (.of_ne (by simp [hst]))
  · rename_i hst; exact onPacketConnected_moves (.inl hst) h
  · rename_i hst; exact onPacketConnected_moves (.inr hst) h
  · cases h; exact .nil _

/-- The readings of an event are among these. -/
def Readings.of (g : Readings) : Event → Prop
  | .service env => g.clock env.now ∧ ∀ k, g.clock (env.loopNow k)
  | .submit p t _ => g.asked p t
  | _ => True

theorem step_movesG {cfg : Config} {c c' : Client} {e : Event} (he : Enabled c e) (h : step cfg c e = .ok c')
    (hg : g.of e) (hend : c'.ctl.state = .terminated → g.ends) : MovesG g cfg c c' := by
  cases e with
  | submit p t x =>
    simp only [step] at h
    cases h
    unfold Client.submit
    split
    · exact .single (.reject c p _ he.1 (by decide))
    · split
      · exact .single (.reject c p _ he.1 (by decide))
      · rename_i hx _
        exact .single (.accept c p t he.1 he.2.1 (fun ht => hx (he.2.2 ht)) hg)
  | setDesired d v =>
    simp only [step] at h
    cases h
    unfold Client.setDesired
    split
    · exact .nil _
    · refine .cons (.control c { c.ctl with desired := d } (.desired _ _)) ?_
      simp only
      split
      · split
        · exact shutdownWith_moves _ _ _ _ (.inr rfl)
        · exact .nil _
      · exact .nil _
  | service env => exact service_moves h hg.1 hg.2 hend
  | setup err now => exact setup_moves h
  | shutdown e => simp only [step] at h; cases h; exact shutdownFinal_moves ..
  | writeComplete e => simp only [step] at h; cases h; exact writeComplete_moves _ _ _ he.2
  | packet p acquire now => exact onPacket_moves he.2 h
  | readFailed e =>
    simp only [step] at h
    cases h
    unfold Client.readFailed
    split
    · exact shutdownClean_moves _ _ _ _ fun _ => he
    · exact .k (.shutdown _ _ fun _ => he)
  | invoke ctl => simp only [step] at h; cases h; exact .single (.invoke c ctl he)
  | resetConnection =>
    simp only [step] at h
    cases h
    unfold Client.resetConnection
    split
    · rename_i hst; exact .k (.shutdown _ _ (Settled.of_ne (by simp [hst])))
    · rename_i hst; exact .k (.shutdown _ _ (Settled.of_ne (by simp [hst])))
    · exact .k (.misc _ _ rfl rfl rfl rfl rfl rfl rfl rfl)
    · exact .nil _

theorem step_moves {cfg : Config} {c c' : Client} {e : Event} (he : Enabled c e) (h : step cfg c e = .ok c') :
    Moves cfg c c' :=
  step_movesG he h (by cases e <;> first | trivial | exact ⟨trivial, fun _ => trivial⟩) fun _ => trivial

theorem moves_inv {cfg : Config} {P : Client → Prop} (hmove : ∀ c c', P c → Move cfg c c' → P c') {c c' : Client}
    (h : Moves cfg c c') (hc : P c) : P c' := by
  induction h with
  | nil => exact hc
  | cons m _ ih => exact ih (hmove _ _ hc m)

/-- Induction over moves for what every reachable state satisfies. -/
theorem reachable_inv {cfg : Config} {P : Client → Prop} (hnew : P (Client.new cfg))
    (hmove : ∀ c c', P c → Move cfg c c' → P c') {c : Client} (h : Reachable cfg c) : P c := by
  induction h with
  | new => exact hnew
  | step _ he hs ih => exact moves_inv hmove (step_moves he hs) ih

end Mqtt.Client5
