import Verif.Lemmas.Client5Alarm
import Verif.Lemmas.Client5Life
import Verif.Spec.Connack5

/-!
The CONNACK timeout of the MQTT 5 client.
-/
namespace Mqtt.Client5

open Mqtt.V5

attribute [local irreducible] pingDue pingDeadline connackDeadline

/-- The CONNACK timeout stays, and the client does not begin to wait for a CONNACK. -/
def Keeps (k k' : Control) : Prop :=
  k'.connackDeadline = k.connackDeadline ∧ (k'.state = k.state ∨ k'.state ≠ .mqttConnect)

theorem Keeps.refl (k : Control) : Keeps k k := ⟨rfl, .inl rfl⟩

theorem Keeps.trans {a b c : Control} (h : Keeps a b) (h' : Keeps b c) : Keeps a c := by
  refine ⟨h'.1.trans h.1, ?_⟩
  rcases h'.2 with h2 | h2
  · rw [h2]; exact h.2
  · exact .inr h2

theorem emitFinal_keeps (k : Control) (e : Error) : Keeps k (k.emitFinal e) := by
  unfold Control.emitFinal; split <;> exact ⟨rfl, .inl rfl⟩

theorem shutdownChannel_keeps (k : Control) (e : Error) : Keeps k (k.shutdownChannel e) := by
  obtain ⟨e', h⟩ := shutdownChannel_eq k e
  rw [h]
  split
  · exact ⟨(emitFinal_keeps k e').1, .inr (by simp)⟩
  · exact emitFinal_keeps k e'

theorem onComplete_keeps (k : Control) (p : Outgoing) (e : Error) : Keeps k (k.onComplete p e) := by
  unfold Control.onComplete
  split
  · exact shutdownChannel_keeps ..
  · exact .refl _

theorem onCompleteAll_keeps (k : Control) (ops : List Op) (e : Error) : Keeps k (k.onCompleteAll ops e) := by
  unfold Control.onCompleteAll
  induction ops generalizing k with
  | nil => exact .refl _
  | cons op ops ih => exact (onComplete_keeps k op.packet e).trans (ih _)

theorem takeNext_keeps {cfg : Config} {env : Env} (q : List Op) (c : Client) :
    Keeps c.ctl (c.takeNext cfg env q).1.ctl := by
  induction q generalizing c with
  | nil => exact .refl _
  | cons op rest ih =>
    rw [Client.takeNext]
    split
    · exact .refl _
    · simp only
      split
      · exact .refl _
      · rename_i e _
        have h2 := onComplete_keeps c.ctl op.packet e
        split
        · exact h2
        · exact h2.trans (ih _)

theorem load_keeps {cfg : Config} {env : Env} {c c' : Client} {e : Option Error}
    (h : c.load cfg env = .ok (c', e)) : Keeps c.ctl c'.ctl := by
  unfold Client.load at h
  split at h
  · cases h; exact .refl _
  · have h1 := takeNext_keeps (cfg := cfg) (env := env) c.ops.queued c
    rcases hx : c.takeNext cfg env c.ops.queued with ⟨c2, r⟩
    rw [hx] at h h1
    cases r with
    | nothing => cases h; exact h1
    | failed => cases h; exact h1
    | next op =>
      simp only at h
      split at h
      · cases h
      · cases h
        exact h1

theorem finish_keeps {cfg : Config} {c c' : Client} {op : Op} {now t : Nat} (h : c.finish cfg op now t = .ok c') :
    Keeps c.ctl c'.ctl := by
  unfold Client.finish at h
  split at h
  · cases h
  · rename_i s hs
    by_cases hp : op.packet = .pingreq
    · rw [if_pos hp] at h
      have h1 : Keeps c.ctl (c.ctl.onPingreqSend cfg t) := by
        unfold Control.onPingreqSend
        generalize pingDeadline cfg.pingTimeoutMs c.ctl.settings.serverKeepAlive t = d
        exact ⟨rfl, .inl rfl⟩
      generalize c.ctl.onPingreqSend cfg t = k at h h1
      cases h
      exact h1
    · rw [if_neg hp] at h
      cases h
      exact .refl _

theorem serviceLoop_keeps {cfg : Config} {env : Env} {fuel k : Nat} {buf : Buf} {c : Client}
    {r : Client × Buf × Option Error} (h : c.serviceLoop cfg env fuel k buf = .ok r) : Keeps c.ctl r.1.ctl := by
  induction fuel generalizing c k buf with
  | zero => simp only [Client.serviceLoop] at h; cases h; exact .refl _
  | succ fuel ih =>
    rw [Client.serviceLoop] at h
    split at h
    · cases h
    · rename_i c1 e hl; cases h; exact load_keeps hl
    · rename_i c1 hl
      have h1 := load_keeps hl
      split at h
      · cases h; exact h1
      · rename_i op hop
        split at h
        · cases h
          exact h1
        · split at h
          · cases h
          · rename_i c2 hf
            have h2 := finish_keeps hf
            have h3 := h1.trans h2
            split at h
            · exact h3.trans (ih h)
            · cases h; exact h3

theorem serviceOps_keeps {cfg : Config} {env : Env} {c : Client} {r : Client × Option Error}
    (h : c.serviceOps cfg env = .ok r) : Keeps c.ctl r.1.ctl := by
  unfold Client.serviceOps at h
  split at h
  · cases h; exact .refl _
  · split at h
    · cases h; exact .refl _
    · split at h
      · cases h
      · rename_i hl; cases h; exact serviceLoop_keeps hl
      · rename_i hl
        have h1 := serviceLoop_keeps hl
        split at h
        · cases h; exact h1
        · split at h
          · cases h; exact h1
          · cases h; exact h1

theorem afterService_keeps (r : Client × Option Error) : Keeps r.1.ctl (Client.afterService r).1.ctl := by
  unfold Client.afterService
  split
  · exact .refl _
  · exact shutdownChannel_keeps ..

theorem clientTimeouts_ctl {now : Nat} {c c' : Client} (h : c.checkTimeouts now = .ok c') : c'.ctl = c.ctl := by
  unfold Client.checkTimeouts at h
  split at h
  · cases h
  · cases h; rfl

theorem shutdownWith_keeps (c : Client) (e : Error) (v : DisconnectView) : Keeps c.ctl (c.shutdownWith e v).ctl := by
  unfold Client.shutdownWith
  split
  · exact ⟨rfl, .inr (by simp)⟩
  · exact shutdownChannel_keeps ..

theorem shutdownClean_keeps (c : Client) (e : Error) (r : Nat) : Keeps c.ctl (c.shutdownClean e r).ctl := by
  unfold Client.shutdownClean
  split
  · exact shutdownChannel_keeps ..
  · exact shutdownWith_keeps ..

theorem resetPing_keeps (k : Control) (now : Nat) : Keeps k (k.resetPing now) := by
  unfold Control.resetPing
  generalize pingDue k.settings.serverKeepAlive now = d
  exact ⟨rfl, .inl rfl⟩

theorem queuePing_keeps (c : Client) (now : Nat) : Keeps c.ctl (c.queuePing now).ctl := by
  have h : (c.queuePing now).ctl = c.ctl.resetPing now := by unfold Client.queuePing; rfl
  rw [h]
  exact resetPing_keeps ..

theorem toStopped_keeps (c : Client) : Keeps c.ctl c.toStopped.ctl := by
  have h : Keeps c.ctl ({ c.ctl with state := .stopped } : Control) := ⟨rfl, .inr (by simp)⟩
  have h2 := h.trans (onCompleteAll_keeps _ (c.ops.queued ++ c.ops.writing ++ c.ops.unacked) .userStop)
  exact h2

theorem toTerminated_keeps (c : Client) : Keeps c.ctl c.toTerminated.ctl := by
  have h : Keeps c.ctl ({ c.ctl with state := .terminated } : Control) := ⟨rfl, .inr (by simp)⟩
  have h2 := h.trans (onCompleteAll_keeps _ (c.ops.queued ++ c.ops.writing ++ c.ops.unacked) .terminated)
  exact h2

theorem toConnecting_keeps (c : Client) (e : Option Error) : Keeps c.ctl (c.toConnecting e).ctl := by
  unfold Client.toConnecting
  split
  · exact ⟨rfl, .inr (by simp)⟩
  · exact ⟨rfl, .inr (by simp)⟩

theorem shutdownFinal_keeps (cfg : Config) (c : Client) (e : Error) : Keeps c.ctl (c.shutdownFinal cfg e).ctl := by
  have h0 : Keeps c.ctl (c.ctl.channelGone (c.ops.lostOnDisconnection cfg) e) := by
    unfold Control.channelGone
    have h := emitFinal_keeps c.ctl (if e = .success then .hangup else e)
    exact Keeps.trans (b := { c.ctl.emitFinal (if e = .success then .hangup else e) with slot := false, channel := false })
      h (onCompleteAll_keeps ..)
  unfold Client.shutdownFinal
  simp only
  split
  · exact ⟨h0.1, .inr (by simp)⟩
  · exact Keeps.trans (b := c.ctl.channelGone (c.ops.lostOnDisconnection cfg) e) h0 (toStopped_keeps _)

theorem handleAck_keeps {c c' : Client} {id : Nat} {a : Received} (h : c.handleAck id a = .ok c') :
    Keeps c.ctl c'.ctl := by
  unfold Client.handleAck at h
  split at h
  · cases h; exact .refl _
  · split at h
    · cases h
    · simp only at h
      split at h
      · cases h
      · cases h; exact onComplete_keeps ..
      · rename_i op rest _ _ _
        have h2 := onComplete_keeps c.ctl op.packet .protocolError
        split at h
        · cases h; exact h2.trans (shutdownClean_keeps ..)
        · cases h; exact h2.trans (shutdownChannel_keeps ..)

theorem onPacketConnected_keeps {c c' : Client} {p : Received} {a : Bool} (h : c.onPacketConnected p a = .ok c') :
    Keeps c.ctl c'.ctl := by
  unfold Client.onPacketConnected at h
  split at h
  · cases h; exact ⟨rfl, .inl rfl⟩
  · split at h
    · cases h
    · rename_i k hk
      cases h
      unfold Control.emitFinalDisconnect at hk
      split at hk
      · cases hk
      · cases hk; exact (emitFinal_keeps ..).trans (shutdownChannel_keeps ..)
  · exact handleAck_keeps h
  · exact handleAck_keeps h
  · cases h; exact .refl _
  · have h1 := handleAck_keeps h; exact h1
  · cases h; exact .refl _

theorem toConnected_keeps (cfg : Config) (c : Client) (now : Nat) : Keeps c.ctl (c.toConnected cfg now).ctl := by
  unfold Client.toConnected
  simp only
  generalize (if c.ctl.settings.rejoinedSession = true then [] else lose cfg.offline c.ops.unacked) = lost
  have h : Keeps c.ctl ({ c.ctl with state := .connected } : Control) := ⟨rfl, .inr (by simp)⟩
  have h2 := h.trans (onCompleteAll_keeps _ lost .offlinePolicy)
  generalize Control.onCompleteAll { c.ctl with state := .connected } lost .offlinePolicy = k at h2
  have h3 := h2.trans (Keeps.trans (b := { k with hasConnected := true, pingTimeout := 0 }) ⟨rfl, .inl rfl⟩
    (resetPing_keeps _ now))
  generalize Control.resetPing { k with hasConnected := true, pingTimeout := 0 } now = k' at h3
  exact h3

theorem onConnack_keeps {cfg : Config} {c c' : Client} {v : ConnackView} {now : Nat}
    (h : c.onConnack cfg v now = .ok c') : Keeps c.ctl c'.ctl := by
  have hcon : ∀ {k k' : Control} {e : Error}, k.emitFinalConnack e = .ok k' → Keeps k k' := by
    intro k k' e h
    unfold Control.emitFinalConnack at h
    split at h
    · cases h
    · cases h; exact emitFinal_keeps ..
  unfold Client.onConnack at h
  split at h
  · split at h
    · cases h
    · rename_i hk
      cases h
      exact (hcon hk).trans (shutdownChannel_keeps ..)
  · simp only at h
    have h0 : Keeps c.ctl ({ c.ctl with settings := c.ctl.settings.applyConnack v } : Control) := ⟨rfl, .inl rfl⟩
    split at h
    · split at h
      · cases h
      · rename_i hk
        cases h
        exact h0.trans ((hcon hk).trans (shutdownChannel_keeps ..))
    · cases h
      exact h0.trans (toConnected_keeps ..)

theorem serviceMqttConnect_keeps {cfg : Config} {env : Env} {c c' : Client}
    (h : c.serviceMqttConnect cfg env = .ok c') : Keeps c.ctl c'.ctl := by
  unfold Client.serviceMqttConnect at h
  split at h
  · cases h; exact (emitFinal_keeps ..).trans (shutdownChannel_keeps ..)
  · split at h
    · cases h; exact (emitFinal_keeps ..).trans (shutdownChannel_keeps ..)
    · split at h
      · cases h
      · rename_i hs
        cases h
        exact (serviceOps_keeps hs).trans (afterService_keeps ..)

theorem serviceConnected_keeps {cfg : Config} {env : Env} {c c' : Client}
    (h : c.serviceConnected cfg env = .ok c') : Keeps c.ctl c'.ctl := by
  unfold Client.serviceConnected at h
  split at h
  · cases h; exact (emitFinal_keeps ..).trans (shutdownChannel_keeps ..)
  · split at h
    · cases h
      exact Keeps.trans (b := c.ctl.emitFinal .pingTimeout) (emitFinal_keeps ..) (shutdownClean_keeps ..)
    · simp only at h
      have h1 : Keeps c.ctl (if env.now ≥ c.ctl.nextPing then c.queuePing env.queueNow else c).ctl := by
        split
        · exact queuePing_keeps ..
        · exact .refl _
      generalize (if env.now ≥ c.ctl.nextPing then c.queuePing env.queueNow else c) = c1 at h h1
      split at h
      · cases h
      · rename_i c2 hc
        rw [← clientTimeouts_ctl hc] at h1
        split at h
        · cases h
        · rename_i hs
          cases h
          exact h1.trans ((serviceOps_keeps hs).trans (afterService_keeps ..))

theorem serviceCleanDisconnect_keeps {cfg : Config} {env : Env} {c c' : Client}
    (h : c.serviceCleanDisconnect cfg env = .ok c') : Keeps c.ctl c'.ctl := by
  unfold Client.serviceCleanDisconnect at h
  split at h
  · cases h
  · rename_i r hs
    have h1 := (serviceOps_keeps hs).trans (afterService_keeps r)
    split at h
    · rename_i c1 hr
      cases h
      rw [hr] at h1; exact h1
    · rename_i c1 hr
      rw [hr] at h1
      rw [clientTimeouts_ctl h]; exact h1

theorem service_keeps {cfg : Config} {env : Env} {c c' : Client} (h : c.service cfg env = .ok c') :
    Keeps c.ctl c'.ctl := by
  unfold Client.service at h
  split at h
  · split at h
    · cases h; exact toConnecting_keeps ..
    · cases h; exact toTerminated_keeps ..
    · cases h; exact .refl _
  · exact serviceMqttConnect_keeps h
  · exact serviceConnected_keeps h
  · exact serviceCleanDisconnect_keeps h
  · split at h
    · cases h; exact toStopped_keeps ..
    · split at h
      · cases h; exact toConnecting_keeps ..
      · cases h; exact .refl _
  · cases h; exact .refl _

/-- A client that waits for a CONNACK has waited before with the same deadline, or its channel has just been set up. -/
theorem connack_step {cfg : Config} {c c' : Client} {e : Event} (h : step cfg c e = .ok c')
    (hs : c'.ctl.state = .mqttConnect) :
    (c.ctl.state = .mqttConnect ∧ c'.ctl.connackDeadline = c.ctl.connackDeadline) ∨
    ∃ now, e = .setup none now ∧ c'.ctl.desired = .connected ∧ c'.ctl.slot = true ∧
      (c'.ctl.connackDeadline = connackDeadline cfg.connackTimeoutMs now) := by
  have of : Keeps c.ctl c'.ctl → c.ctl.state = .mqttConnect ∧ c'.ctl.connackDeadline = c.ctl.connackDeadline := by
    rintro ⟨h1, h2 | h2⟩
    · exact ⟨h2 ▸ hs, h1⟩
    · exact absurd hs h2
  cases e with
  | submit p t x =>
    refine .inl (of ?_)
    injection h with h
    subst h
    unfold Client.submit
    split
    · exact .refl _
    · split <;> exact .refl _
  | setDesired d v =>
    refine .inl (of ?_)
    injection h with h
    subst h
    unfold Client.setDesired
    split
    · exact .refl _
    · simp only
      split
      · split
        · exact Keeps.trans (b := { c.ctl with desired := d }) ⟨rfl, .inl rfl⟩ (shutdownWith_keeps ..)
        · exact ⟨rfl, .inl rfl⟩
      · exact ⟨rfl, .inl rfl⟩
  | service env => exact .inl (of (service_keeps h))
  | setup err now =>
    cases err with
    | some e =>
      refine .inl (of ?_)
      injection h with h
      subst h
      exact shutdownFinal_keeps ..
    | none =>
      refine .inr ⟨now, rfl, ?_⟩
      simp only [step, Client.setup] at h
      split at h
      · cases h
      · split at h
        · cases h; cases hs
        · rename_i hd
          have hd : c.ctl.desired = .connected := by simpa using hd
          unfold Client.toMqttConnect at h
          have hshut : ∀ k : Control, k.state = .mqttConnect → k.slot = true → ∀ e, (k.shutdownChannel e).state ≠ .mqttConnect := by
            intro k h1 h2 e
            obtain ⟨e', h3⟩ := shutdownChannel_eq k e
            rw [h3, h1, h2, if_pos (by simp [State.open])]
            simp
          split at h
          · cases h
          · split at h
            · cases h
            · simp only at h
              split at h
              · cases h
                exact absurd hs (hshut _ rfl rfl _)
              · split at h
                · cases h
                  exact absurd hs (hshut _ rfl rfl _)
                · generalize connackDeadline cfg.connackTimeoutMs now = d at h ⊢
                  cases h
                  exact ⟨hd, rfl, rfl⟩
  | shutdown e =>
    refine .inl (of ?_)
    injection h with h
    subst h
    exact shutdownFinal_keeps ..
  | writeComplete e =>
    refine .inl (of ?_)
    injection h with h
    subst h
    unfold Client.writeComplete
    simp only
    refine Keeps.trans ?_ (onCompleteAll_keeps ..)
    split
    · exact shutdownChannel_keeps ..
    · exact .refl _
  | packet p a now =>
    refine .inl (of ?_)
    simp only [step, Client.onPacket] at h
    split at h
    · split at h
      · exact onConnack_keeps h
      · cases h; exact shutdownClean_keeps ..
    · exact onPacketConnected_keeps h
    · exact onPacketConnected_keeps h
    · cases h; exact .refl _
  | readFailed e =>
    refine .inl (of ?_)
    injection h with h
    subst h
    unfold Client.readFailed
    split
    · exact shutdownClean_keeps ..
    · exact shutdownChannel_keeps ..
  | invoke ctl =>
    refine .inl (of ?_)
    injection h with h
    subst h
    exact .refl _
  | resetConnection =>
    refine .inl (of ?_)
    injection h with h
    subst h
    unfold Client.resetConnection
    split
    · exact shutdownChannel_keeps ..
    · exact shutdownChannel_keeps ..
    · exact ⟨rfl, .inl rfl⟩
    · exact .refl _

theorem nextService_connack {cfg : Config} {c : Client} {w : Waits} {now : Nat} (hs : c.ctl.state = .mqttConnect)
    (hd : c.ctl.desired = .connected) (hp : 0 < c.ctl.connackDeadline) :
    0 < c.nextService cfg w now ∧ c.nextService cfg w now ≤ c.ctl.connackDeadline := by
  unfold Client.nextService
  rw [hs]
  simp only [hd, ne_eq, not_true, if_false]
  generalize (c.serviceTime cfg w.throughput w.publish now).getD 0 = st
  split <;> omega

/-- The CONNACK timeout in nanoseconds. -/
def connackNs (cfg : Config) : Nat :=
  Reconnect.convert (if cfg.connackTimeoutMs = 0 then 10000 else cfg.connackTimeoutMs) 1000 1000000000

theorem connackDeadline_eq (cfg : Config) (now : Nat) :
    connackDeadline cfg.connackTimeoutMs now = now + connackNs cfg := by
  unfold connackDeadline connackNs; rfl

/-- The service task is scheduled for the CONNACK timeout at the latest. -/
structure ConnackInv (x : Clocked) : Prop where
  pos : x.client.ctl.state = .mqttConnect → 0 < x.client.ctl.connackDeadline
  runs : x.client.ctl.state = .mqttConnect → x.client.ctl.desired = .connected →
    0 < x.scheduled ∧ x.scheduled ≤ x.client.ctl.connackDeadline

theorem connack_inv {cfg : Config} {late : Nat} {x : Clocked} (h : Timed cfg late x) : ConnackInv x := by
  induction h with
  | new t ht => constructor <;> intro h <;> cases h
  | @step x y t e hx hs ih =>
    have hc := (timed_timer hx).clock
    cases hs with
    | @mk _ now t' c' w hst he hstep hr h1 h2 =>
      have hpos : c'.ctl.state = .mqttConnect → 0 < c'.ctl.connackDeadline := by
        intro hm
        rcases connack_step hstep hm with ⟨k1, k2⟩ | ⟨n, rfl, _, _, k2⟩
        · rw [k2]; exact ih.pos k1
        · rw [k2, connackDeadline_eq]
          have := hst.1
          have := hr.1
          omega
      refine ⟨hpos, fun hm hd => ?_⟩
      simp only at hm hd ⊢
      split
      · rw [reevaluate_eq]
        exact nextService_connack hm hd (hpos hm)
      · rename_i hre
        obtain ⟨k1, k2, _, _, k5⟩ := still_step hstep (by simp [hm, State.open]) (by simpa using hre)
        have hx := ih.runs (k1 ▸ hm) (k2 ▸ hd)
        rcases connack_step hstep hm with ⟨_, k3⟩ | ⟨n, rfl, _⟩
        · rw [k3]
          cases e with
          | service env => exact absurd rfl (k5 env)
          | _ => exact hx
        · simp [reevaluates] at hre

/-- A waiting client waits since some setup. -/
theorem awaits_of {cfg : Config} {late : Nat} {x : Clocked} (h : Timed cfg late x)
    (hs : x.client.ctl.state = .mqttConnect) : ∃ b b', Awaits cfg late b b' x := by
  induction h with
  | new t ht => cases hs
  | @step x y t e hx hst ih =>
    have hst' := hst
    cases hst' with
    | @mk _ now t' c' w h1 he hstep hr h2 h3 =>
      rcases connack_step hstep hs with ⟨k1, k2⟩ | ⟨n, rfl, _⟩
      · obtain ⟨b, b', hb⟩ := ih k1
        refine ⟨b, b', .step hb hst ?_ hs⟩
        rintro n rfl
        have : x.client.ctl.state = .connecting := he
        rw [this] at k1; cases k1
      · exact ⟨t, _, .setup hx hst hs⟩

theorem awaits_deadline {cfg : Config} {late b b' : Nat} {x : Clocked} (h : Awaits cfg late b b' x) :
    x.client.ctl.state = .mqttConnect ∧ b + connackNs cfg ≤ x.client.ctl.connackDeadline ∧
      x.client.ctl.connackDeadline ≤ b' + connackNs cfg := by
  induction h with
  | @setup x y b now hx hs hm =>
    cases hs with
    | @mk _ now' t' c' w h1 he hstep hr h2 h3 =>
      rcases connack_step hstep hm with ⟨k1, _⟩ | ⟨n, hn, _, _, k2⟩
      · have : x.client.ctl.state = .connecting := he
        rw [this] at k1; cases k1
      · cases hn
        refine ⟨hm, ?_⟩
        simp only
        rw [k2, connackDeadline_eq]
        have := hr.1
        have := hr.2
        omega
  | @step x y b b' t e hx hs hne hm ih =>
    cases hs with
    | @mk _ now' t' c' w h1 he hstep hr h2 h3 =>
      rcases connack_step hstep hm with ⟨_, k2⟩ | ⟨n, hn, _⟩
      · refine ⟨hm, ?_⟩
        simp only
        rw [k2]
        exact ih.2
      · exact absurd hn (hne n)

/-! ## What the service task reports -/

/-- No CONNACK timeout is reported. -/
def Mild (k k' : Control) : Prop := ∃ new, k'.events = k.events ++ new ∧ .failure .connackTimeout ∉ new

theorem Mild.refl (k : Control) : Mild k k := ⟨[], by simp, by simp⟩

theorem Mild.trans {a b c : Control} (h : Mild a b) (h' : Mild b c) : Mild a c := by
  obtain ⟨n1, a1, a2⟩ := h
  obtain ⟨n2, b1, b2⟩ := h'
  exact ⟨n1 ++ n2, by rw [b1, a1, List.append_assoc], fun hm => (List.mem_append.1 hm).elim a2 b2⟩

theorem emitFinal_mild {e : Error} (he : e ≠ .connackTimeout) (k : Control) : Mild k (k.emitFinal e) := by
  unfold Control.emitFinal
  split
  · exact .refl _
  · exact ⟨_, rfl, by simpa using he.symm⟩
  · exact ⟨_, rfl, by simp⟩

theorem shutdownChannel_mild {e : Error} (he : e ≠ .connackTimeout) (k : Control) : Mild k (k.shutdownChannel e) := by
  unfold Control.shutdownChannel
  have he' : (if e = .success then Error.other 0 else e) ≠ .connackTimeout := by
    split
    · simp
    · exact he
  generalize (if e = .success then Error.other 0 else e) = e' at he'
  have h := emitFinal_mild he' k
  dsimp only
  split
  · exact h
  · split
    · exact h
    · exact h

theorem invalid_errors {cfg : Config} {c : Client} {p : Outgoing} {e : Error} (h : c.invalid cfg p = some e) :
    e ≠ .connackTimeout ∧ e ≠ .success := by
  unfold Client.invalid at h
  repeat' split at h
  all_goals first | injection h with h; subst h; simp | cases h

theorem takeNext_mild {cfg : Config} {env : Env} (q : List Op) (c : Client) :
    Mild c.ctl (c.takeNext cfg env q).1.ctl := by
  induction q generalizing c with
  | nil => exact .refl _
  | cons op rest ih =>
    rw [Client.takeNext]
    split
    · exact .refl _
    · simp only
      split
      · exact .refl _
      · rename_i e he
        have h1 := invalid_errors he
        have h2 : Mild c.ctl (c.ctl.onComplete op.packet e) := by
          unfold Control.onComplete
          split
          · rw [if_pos h1.2]; exact shutdownChannel_mild h1.1 _
          · exact .refl _
        split
        · exact h2
        · exact h2.trans (ih _)

theorem load_mild {cfg : Config} {env : Env} {c c' : Client} {e : Option Error}
    (h : c.load cfg env = .ok (c', e)) : Mild c.ctl c'.ctl ∧ e ≠ some .connackTimeout := by
  unfold Client.load at h
  split at h
  · cases h; exact ⟨.refl _, by simp⟩
  · have h1 := takeNext_mild (cfg := cfg) (env := env) c.ops.queued c
    rcases hx : c.takeNext cfg env c.ops.queued with ⟨c2, r⟩
    rw [hx] at h h1
    cases r with
    | nothing => cases h; exact ⟨h1, by simp⟩
    | failed => cases h; exact ⟨h1, by simp⟩
    | next op =>
      simp only at h
      split at h
      · cases h
      · cases h
        exact ⟨h1, by split <;> simp⟩

theorem finish_mild {cfg : Config} {c c' : Client} {op : Op} {now t : Nat} (h : c.finish cfg op now t = .ok c') :
    Mild c.ctl c'.ctl := by
  unfold Client.finish at h
  split at h
  · cases h
  · by_cases hp : op.packet = .pingreq
    · rw [if_pos hp] at h
      have h1 : Mild c.ctl (c.ctl.onPingreqSend cfg t) := by
        unfold Control.onPingreqSend
        generalize pingDeadline cfg.pingTimeoutMs c.ctl.settings.serverKeepAlive t = d
        exact ⟨[], by simp, by simp⟩
      generalize c.ctl.onPingreqSend cfg t = k at h h1
      cases h
      exact h1
    · rw [if_neg hp] at h
      cases h
      exact .refl _

theorem serviceLoop_mild {cfg : Config} {env : Env} {fuel k : Nat} {buf : Buf} {c : Client}
    {r : Client × Buf × Option Error} (h : c.serviceLoop cfg env fuel k buf = .ok r) :
    Mild c.ctl r.1.ctl ∧ r.2.2 ≠ some .connackTimeout := by
  induction fuel generalizing c k buf with
  | zero => simp only [Client.serviceLoop] at h; cases h; exact ⟨.refl _, by simp⟩
  | succ fuel ih =>
    rw [Client.serviceLoop] at h
    split at h
    · cases h
    · rename_i c1 e hl; cases h; exact load_mild hl
    · rename_i c1 hl
      have h1 := (load_mild hl).1
      split at h
      · cases h; exact ⟨h1, by simp⟩
      · split at h
        · cases h
          exact ⟨h1, by simp⟩
        · split at h
          · cases h
          · rename_i c2 hf
            have h2 := finish_mild hf
            have h3 := h1.trans h2
            split at h
            · exact ⟨h3.trans (ih h).1, (ih h).2⟩
            · cases h; exact ⟨h3, by simp⟩

theorem serviceOps_mild {cfg : Config} {env : Env} {c : Client} {r : Client × Option Error}
    (h : c.serviceOps cfg env = .ok r) (he : env.sendFails ≠ some .connackTimeout) :
    Mild c.ctl r.1.ctl ∧ r.2 ≠ some .connackTimeout := by
  unfold Client.serviceOps at h
  split at h
  · cases h; exact ⟨.refl _, by simp⟩
  · split at h
    · cases h; exact ⟨.refl _, by simp⟩
    · split at h
      · cases h
      · rename_i hl; cases h; exact serviceLoop_mild hl
      · rename_i hl
        have h1 := (serviceLoop_mild hl).1
        split at h
        · cases h; exact ⟨h1, by simp⟩
        · split at h
          · rename_i e hs
            cases h; exact ⟨h1, by rw [← hs]; exact he⟩
          · cases h; exact ⟨h1, by simp⟩

theorem afterService_mild {r : Client × Option Error} (h : r.2 ≠ some .connackTimeout) :
    Mild r.1.ctl (Client.afterService r).1.ctl := by
  unfold Client.afterService
  split
  · exact .refl _
  · rename_i e he
    exact shutdownChannel_mild (fun hx => h (hx ▸ he)) _

end Mqtt.Client5
