import Verif.Lemmas.Client5Timer
import Verif.Lemmas.Client5Life
import Verif.Lemmas.Client5TimedRun

/-!
C35: keep-alive of the MQTT 5 client.

Histories with clock readings are in `Verif/Timing5.lean`. `late` is how far the event loop can be behind with
the service task of the client.
-/
namespace Mqtt.Props

open Mqtt.V5 Mqtt.Client5

/-! ## What the property is about -/

def isPingQueued : Effect → Bool
  | .pingQueued _ => true
  | _ => false

def isPingSent : Effect → Bool
  | .encoded _ .pingreq => true
  | _ => false

/-- How many PINGREQ packets the client has put into its queue. -/
def queuedPings (x : Clocked) : Nat := x.client.ops.log.countP isPingQueued

/-- How many PINGREQ packets the client has written. -/
def sentPings (x : Clocked) : Nat := x.client.ops.log.countP isPingSent

/-- The client is connected and not asked to stop. -/
def Up (x : Clocked) : Prop := x.client.ctl.state = .connected ∧ x.client.ctl.desired = .connected

/-- The negotiated keep-alive interval, in seconds. -/
def keepAlive (x : Clocked) : Nat := x.client.ctl.settings.serverKeepAlive

/-- The client closes the connection with the DISCONNECT of a keep-alive timeout. -/
def Closes (x y : Clocked) : Prop :=
  (∃ op v rest, y.client.ops.queued = op :: rest ∧ op.packet = .disconnect v ∧ v.reasonCode = 141) ∧
  y.client.ctl.state = .cleanDisconnect ∧ y.client.ctl.events = x.client.ctl.events ++ [.disconnection .pingTimeout]

def isResponse : Event → Bool
  | .packet .pingresp _ _ => true
  | _ => false

/-- A history from one state to another in which the client is up all the time and all events are as described by
`ok`. -/
inductive Stays (cfg : Config) (late : Nat) (ok : Clocked → Event → Clocked → Prop) : Clocked → Clocked → Prop where
  | refl {x : Clocked} : Up x → Stays cfg late ok x x
  | step {x y z : Clocked} {t : Nat} {e : Event} : Stays cfg late ok x y → Timed.Step cfg late y t e z → Up z →
      ok y e z → Stays cfg late ok x z

/-- No PINGREQ is queued. -/
def NoneQueued (x : Clocked) (_ : Event) (y : Clocked) : Prop := queuedPings y = queuedPings x

/-- No PINGREQ is written. -/
def NoneSent (x : Clocked) (_ : Event) (y : Clocked) : Prop := sentPings y = sentPings x

/-- No PINGREQ is written and no PINGRESP arrives. -/
def Silent (x : Clocked) (e : Event) (y : Clocked) : Prop := NoneSent x e y ∧ isResponse e = false

/-- The time for an answer, in nanoseconds: half the keep-alive interval, or the ping timeout if that is shorter. -/
def allowance (pingTimeoutMs keepAlive : Nat) : Nat :=
  if pingTimeoutMs = 0 then keepAlive * 500000000 else min (pingTimeoutMs * 1000000) (keepAlive * 500000000)

/-! ## Lemmas -/

theorem Stays.up {cfg : Config} {late : Nat} {ok : Clocked → Event → Clocked → Prop} {x y : Clocked}
    (h : Stays cfg late ok x y) : Up y := by
  cases h with
  | refl h => exact h
  | step _ _ h _ => exact h

theorem Stays.timed {cfg : Config} {late : Nat} {ok : Clocked → Event → Clocked → Prop} {x y : Clocked}
    (h : Stays cfg late ok x y) (hx : Timed cfg late x) : Timed cfg late y := by
  induction h with
  | refl _ => exact hx
  | step _ h _ _ ih => exact .step ih h

theorem step_clocks {cfg : Config} {late t : Nat} {x y : Clocked} {e : Event} (h : Timed.Step cfg late x t e y) :
    x.clock ≤ t ∧ t ≤ y.clock ∧ step cfg x.client e = .ok y.client ∧ Reads t y.clock e := by
  cases h with
  | mk w hst hen hstep hr h1 h2 => exact ⟨hst.1, by simp only; omega, hstep, hr⟩

theorem countP_none {p : Effect → Bool} {l new : List Effect} (h : ∀ e ∈ new, p e = false) :
    (l ++ new).countP p = l.countP p := by
  rw [List.countP_append, (List.countP_eq_zero (l := new)).2 (by simpa using h)]; rfl

theorem countP_some {p : Effect → Bool} {l new : List Effect} {e : Effect} (h : e ∈ new) (hp : p e = true) :
    l.countP p < (l ++ new).countP p := by
  rw [List.countP_append]
  have := List.countP_pos_iff.2 ⟨e, h, hp⟩
  omega

theorem quiet_queued {e : Effect} (h : e.aboutPing = false) : isPingQueued e = false := by
  cases e <;> simp_all [Effect.aboutPing, isPingQueued]

theorem quiet_sent {e : Effect} (h : e.aboutPing = false) : isPingSent e = false := by
  cases e with
  | encoded u p => cases p <;> simp_all [Effect.aboutPing, isPingSent]
  | _ => rfl

theorem isPingSent_iff {e : Effect} : isPingSent e = true ↔ ∃ u, e = .encoded u .pingreq := by
  cases e with
  | encoded u p => cases p <;> simp [isPingSent]
  | _ => simp [isPingSent]

theorem isPingQueued_iff {e : Effect} : isPingQueued e = true ↔ ∃ u, e = .pingQueued u := by
  cases e <;> simp [isPingQueued]

theorem pings_queued {cfg : Config} {t : Nat} {c c' : Client} (h : Pings cfg t c c') :
    c'.ops.log.countP isPingQueued = c.ops.log.countP isPingQueued := by
  obtain ⟨new, h1, _, _, h4, _⟩ := h
  rw [h1]
  apply countP_none
  intro e he
  cases hx : isPingQueued e with
  | false => rfl
  | true => obtain ⟨u, rfl⟩ := isPingQueued_iff.1 hx; exact absurd he (h4 u)

/-- What an event does to the time of the next PINGREQ. -/
theorem next_ping {cfg : Config} {late t : Nat} {x y : Clocked} {e : Event} (h : Timed.Step cfg late x t e y)
    (hy : y.client.ctl.state = .connected) :
    (x.client.ctl.state = .connected ∧ queuedPings y = queuedPings x ∧ keepAlive y = keepAlive x ∧
      y.client.ctl.nextPing = x.client.ctl.nextPing) ∨
    ((x.client.ctl.state ≠ .connected ∨ queuedPings x < queuedPings y) ∧
      ∃ now, t ≤ now ∧ now ≤ y.clock ∧ y.client.ctl.nextPing = pingDue (keepAlive y) now) := by
  obtain ⟨_, _, hs, hr⟩ := step_clocks h
  cases step_pings hs hy with
  | quiet h1 _ _ h2 =>
    obtain ⟨⟨new, h3, h4⟩, h5, h6, h7⟩ := h2
    refine .inl ⟨h1, ?_, congrArg Settings.serverKeepAlive h5, h6⟩
    unfold queuedPings
    rw [h3]
    exact countP_none fun e he => quiet_queued (h4 e he)
  | response a n h1 hy => exact .inl ⟨h1, by unfold queuedPings; rw [hy], by unfold keepAlive; rw [hy], by rw [hy]⟩
  | service env h1 _ _ h2 =>
    have hk := h2
    obtain ⟨_, _, hset, _⟩ := hk
    have hnp := pings_nextPing h2
    have hq := pings_queued h2
    split at h2
    · rename_i hd
      rw [if_pos hd] at hset hnp hq
      obtain ⟨q1, q2, q3, q4⟩ := queuePing_nextPing x.client env.queueNow
      refine .inr ⟨.inr ?_, env.queueNow, hr.2.1.1, hr.2.1.2, ?_⟩
      · unfold queuedPings
        rw [hq, q4]
        exact countP_some (List.mem_singleton.2 rfl) rfl
      · rw [hnp, q1]; unfold keepAlive; rw [hset, q2]
    · rename_i hd
      rw [if_neg hd] at hset hnp hq
      exact .inl ⟨h1, hq, congrArg Settings.serverKeepAlive hset, hnp⟩
  | connack v a now h1 _ h2 _ =>
    refine .inr ⟨.inl (by rw [h1]; simp), now, hr.1, hr.2, h2⟩

theorem stays_ping {cfg : Config} {late : Nat} {y z : Clocked} (h : Stays cfg late NoneQueued y z) :
    z.client.ctl.nextPing = y.client.ctl.nextPing := by
  induction h with
  | refl _ => rfl
  | step h1 h2 h3 h4 ih =>
    rcases next_ping h2 h3.1 with ⟨_, _, _, h⟩ | ⟨h | h, _⟩
    · exact h.trans ih
    · exact absurd h1.up.1 h
    · unfold NoneQueued at h4; omega

theorem convert_seconds (k : Nat) : Reconnect.convert k 1 1000000000 ≤ k * 1000000000 := by
  have : Reconnect.convert k 1 1000000000 = Reconnect.addSat (Reconnect.mulSat k 1000000000) 0 := by
    unfold Reconnect.convert
    simp [Reconnect.mulSat]
  rw [this]
  unfold Reconnect.addSat Reconnect.mulSat
  omega

theorem convert_seconds_eq {k : Nat} (hk : k < 65536) : Reconnect.convert k 1 1000000000 = k * 1000000000 := by
  have : Reconnect.convert k 1 1000000000 = Reconnect.addSat (Reconnect.mulSat k 1000000000) 0 := by
    unfold Reconnect.convert
    simp [Reconnect.mulSat]
  rw [this]
  unfold Reconnect.addSat Reconnect.mulSat
  omega

theorem pingDue_eq {k now : Nat} (hk : k < 65536) (h0 : k ≠ 0) :
    pingDue k now = min 18446744073709551615 (now + k * 1000000000) := by
  unfold pingDue
  rw [convert_seconds_eq hk, if_neg (by omega)]
  rfl

theorem pingDue_le {k now : Nat} (h : k ≠ 0) : pingDue k now ≤ now + k * 1000000000 := by
  unfold pingDue
  have h1 := convert_seconds k
  split
  · rename_i h2
    exfalso
    have : Reconnect.convert k 1 1000000000 = Reconnect.addSat (Reconnect.mulSat k 1000000000) 0 := by
      unfold Reconnect.convert
      simp [Reconnect.mulSat]
    rw [this] at h2
    unfold Reconnect.addSat Reconnect.mulSat at h2
    omega
  · have := addSat_le now (Reconnect.convert k 1 1000000000)
    omega

/-! ## PINGREQ packets are queued in time -/

/-- **C35, first part.** After a CONNACK, and after a PINGREQ has been queued, nothing happens later than one keep-alive
interval (plus the lateness of the event loop) while the client is connected before the next PINGREQ is queued. -/
theorem C35_ping {cfg : Config} {late t t' : Nat} {x y z : Clocked} {e : Event} (hx : Timed cfg late x)
    (hs : Timed.Step cfg late x t e y) (hup : Up y)
    (hq : x.client.ctl.state ≠ .connected ∨ queuedPings x < queuedPings y) (hk : keepAlive y ≠ 0)
    (hz : Stays cfg late NoneQueued y z) (ht : Starts late z t') :
    t' ≤ y.clock + keepAlive y * 1000000000 + late := by
  rcases next_ping hs hup.1 with ⟨h1, h2, _⟩ | ⟨_, now, h1, h2, h3⟩
  · rcases hq with hq | hq
    · exact absurd h1 hq
    · omega
  · have hi := timed_timer (hz.timed (.step hx hs))
    have h4 := hi.due hz.up.1 hz.up.2
    have h5 := hi.runs hz.up.1
    have h6 := ht.2 (by omega)
    rw [stays_ping hz, h3] at h4
    have h7 := pingDue_le (now := now) hk
    omega

/-! ## A missing answer is noticed in time -/

theorem convert_millis_le (ms : Nat) : Reconnect.convert ms 1000 1000000000 ≤ ms * 1000000 := by
  unfold Reconnect.convert Reconnect.addSat Reconnect.mulSat
  simp only
  omega

theorem convert_millis_pos {ms : Nat} (h : ms ≠ 0) : 0 < Reconnect.convert ms 1000 1000000000 := by
  unfold Reconnect.convert Reconnect.addSat Reconnect.mulSat
  simp only
  omega

theorem pingDeadline_le (ms k now : Nat) : pingDeadline ms k now ≤ now + allowance ms k := by
  unfold pingDeadline
  have h2 : halfKeepAlive k ≤ k * 500000000 := by
    have h1 := convert_seconds k
    unfold halfKeepAlive; omega
  have h3 := convert_millis_le ms
  have h4 : ms ≠ 0 → 0 < Reconnect.convert ms 1000 1000000000 := convert_millis_pos
  unfold allowance
  generalize Reconnect.convert ms 1000 1000000000 = m at *
  generalize halfKeepAlive k = h at *
  refine Nat.le_trans (addSat_le _ _) (Nat.add_le_add_left ?_ now)
  by_cases h5 : m = 0 ∨ m > h
  · rw [if_pos h5]
    by_cases h0 : ms = 0
    · rw [if_pos h0]; exact h2
    · have := h4 h0
      rw [if_neg h0]; omega
  · rw [if_neg h5]
    by_cases h0 : ms = 0
    · rw [if_pos h0]; clear h3; omega
    · rw [if_neg h0]; omega

theorem pings_sent {cfg : Config} {t : Nat} {c c' : Client} (h : Pings cfg t c c') :
    (c'.ctl.pingTimeout = c.ctl.pingTimeout ∧ c'.ops.log.countP isPingSent = c.ops.log.countP isPingSent) ∨
    (c'.ctl.pingTimeout = pingDeadline cfg.pingTimeoutMs c.ctl.settings.serverKeepAlive t ∧
      c.ops.log.countP isPingSent < c'.ops.log.countP isPingSent) := by
  obtain ⟨new, h1, _, _, _, ⟨h5, h6⟩ | ⟨h5, u, h6⟩⟩ := h
  · refine .inl ⟨h5, ?_⟩
    rw [h1]
    apply countP_none
    intro e he
    cases hx : isPingSent e with
    | false => rfl
    | true => obtain ⟨u, rfl⟩ := isPingSent_iff.1 hx; exact absurd he (h6 u)
  · exact .inr ⟨h5, by rw [h1]; exact countP_some h6 rfl⟩

/-- What an event does to the deadline of the PINGRESP. -/
theorem deadline_step {cfg : Config} {late t : Nat} {x y : Clocked} {e : Event} (h : Timed.Step cfg late x t e y)
    (hy : y.client.ctl.state = .connected) :
    (sentPings y = sentPings x ∧ x.client.ctl.state = .connected ∧ isResponse e = false ∧
      y.client.ctl.pingTimeout = x.client.ctl.pingTimeout) ∨
    (sentPings y = sentPings x ∧ (isResponse e = true ∨ x.client.ctl.state ≠ .connected) ∧
      y.client.ctl.pingTimeout = 0) ∨
    (sentPings x < sentPings y ∧ x.client.ctl.state = .connected ∧
      ∃ now, t ≤ now ∧ now ≤ y.clock ∧ y.client.ctl.pingTimeout = pingDeadline cfg.pingTimeoutMs (keepAlive y) now) := by
  obtain ⟨_, _, hs, hr⟩ := step_clocks h
  cases step_pings hs hy with
  | quiet h1 hne _ h2 =>
    obtain ⟨⟨new, h3, h4⟩, h5, h6, h7⟩ := h2
    refine .inl ⟨?_, h1, ?_, h7⟩
    · unfold sentPings
      rw [h3]
      exact countP_none fun e he => quiet_sent (h4 e he)
    · cases e with
      | packet p a n => cases p <;> first | rfl | exact absurd rfl (hne _ _)
      | _ => rfl
  | response a n h1 hy => exact .inr (.inl ⟨by unfold sentPings; rw [hy], .inl rfl, by rw [hy]⟩)
  | service env h1 _ _ h2 =>
    have hk := h2
    obtain ⟨_, _, hset, _⟩ := hk
    have hp := pings_sent h2
    obtain ⟨q1, q2, q3, q4⟩ := queuePing_nextPing x.client env.queueNow
    have hc : ∀ c : Client, c = (if env.now ≥ x.client.ctl.nextPing then x.client.queuePing env.queueNow else x.client) →
        c.ctl.pingTimeout = x.client.ctl.pingTimeout ∧ c.ctl.settings = x.client.ctl.settings ∧
        c.ops.log.countP isPingSent = sentPings x := by
      intro c hc
      rw [hc]
      split
      · refine ⟨q3, q2, ?_⟩
        rw [q4]
        exact countP_none (by simp [isPingSent])
      · exact ⟨rfl, rfl, rfl⟩
    obtain ⟨c1, c2, c3⟩ := hc _ rfl
    rw [c1, c2, c3] at hp
    rw [c2] at hset
    rcases hp with ⟨hp, hq⟩ | ⟨hp, hq⟩
    · exact .inl ⟨hq, h1, rfl, hp⟩
    · exact .inr (.inr ⟨hq, h1, env.pingNow, hr.2.2.1.1, hr.2.2.1.2, by unfold keepAlive; rw [hp, hset]⟩)
  | connack v a now h1 h0 h2 h3 =>
    obtain ⟨new, h3, h4⟩ := h3
    refine .inr (.inl ⟨?_, .inr (by rw [h1]; simp), h0⟩)
    unfold sentPings
    rw [h3]
    exact countP_none fun e he => quiet_sent (h4 e he)

theorem stays_deadline {cfg : Config} {late : Nat} {y z : Clocked} (h : Stays cfg late Silent y z) :
    z.client.ctl.pingTimeout = y.client.ctl.pingTimeout := by
  induction h with
  | refl _ => rfl
  | step h1 h2 h3 h4 ih =>
    rcases deadline_step h2 h3.1 with ⟨_, _, _, h⟩ | ⟨_, h | h, _⟩ | ⟨h, _⟩
    · exact h.trans ih
    · rw [h4.2] at h; cases h
    · exact absurd h1.up.1 h
    · have := h4.1; unfold NoneSent at this; omega

theorem pingDeadline_pos {ms k now : Nat} (h : 0 < now) : 0 < pingDeadline ms k now := by
  unfold pingDeadline; exact addSat_pos h

/-- **C35, second part, for the PINGREQ written last.** After a PINGREQ has been written, and while neither a PINGRESP
arrives nor another PINGREQ is written, nothing happens later than the allowance for an answer (plus the lateness of
the event loop) while the client is connected. (Missing: with another PINGREQ in between, see
`C35_violated_extended`; a PINGREQ that is only queued, see `C35_violated_blocked`.) -/
theorem C35_timeout_partial {cfg : Config} {late t t' : Nat} {x y z : Clocked} {e : Event} (hx : Timed cfg late x)
    (hs : Timed.Step cfg late x t e y) (hup : Up y) (hq : sentPings x < sentPings y)
    (hz : Stays cfg late Silent y z) (ht : Starts late z t') :
    t' ≤ y.clock + allowance cfg.pingTimeoutMs (keepAlive y) + late := by
  rcases deadline_step hs hup.1 with ⟨h1, _⟩ | ⟨h1, _⟩ | ⟨_, _, now, h1, h2, h3⟩
  · omega
  · omega
  · have hi := timed_timer (hz.timed (.step hx hs))
    have h4 := hi.due hz.up.1 hz.up.2
    have h5 := hi.runs hz.up.1
    have h6 := ht.2 (by omega)
    rw [stays_deadline hz, h3] at h4
    have hpos : 0 < now := by
      have := (timed_timer hx).clock
      have := (step_clocks hs).1
      omega
    have h7 := pingDeadline_pos (ms := cfg.pingTimeoutMs) (k := keepAlive y) hpos
    have h8 := pingDeadline_le cfg.pingTimeoutMs (keepAlive y) now
    have h9 := h4.2 (by omega)
    omega

/-! ## The connection is closed -/

theorem service_connected {cfg : Config} {c c' : Client} {env : Env} (h : step cfg c (.service env) = .ok c')
    (hc : c.ctl.state = .connected) (hd : c.ctl.desired = .connected) :
    ((c.ctl.pingTimeout ≠ 0 ∧ c.ctl.pingTimeout ≤ env.now) ∧
      c' = (({ c with ctl := c.ctl.emitFinal .pingTimeout } : Client).shutdownClean .pingTimeout 141)) ∨
    (¬(c.ctl.pingTimeout ≠ 0 ∧ c.ctl.pingTimeout ≤ env.now) ∧ c'.ctl.state ≠ .cleanDisconnect) := by
  change c.service cfg env = .ok c' at h
  unfold Client.service at h
  rw [hc] at h
  simp only at h
  unfold Client.serviceConnected at h
  rw [if_neg (by simp [hd])] at h
  split at h
  · rename_i ht
    cases h
    exact .inl ⟨⟨ht.2, ht.1⟩, rfl⟩
  · rename_i ht
    refine .inr ⟨fun hx => ht ⟨hx.2, hx.1⟩, ?_⟩
    have key : ∀ c1 : Client, c1 = (if env.now ≥ c.ctl.nextPing then c.queuePing env.queueNow else c) →
        c1.ctl.state = .connected := by
      intro c1 h1
      rw [h1]
      split
      · rw [← hc]; exact resetPing_state ..
      · exact hc
    have key := key _ rfl
    simp only at h
    generalize (if env.now ≥ c.ctl.nextPing then c.queuePing env.queueNow else c) = c1 at h key
    split at h
    · cases h
    · rename_i c2 h2
      have h3 := timeouts_state h2
      split at h
      · cases h
      · rename_i r hr
        cases h
        intro hx
        unfold Client.afterService at hx
        have h4 : r.1.ctl.state = .connected ∨ r.1.ctl.state = .channelShutdown := by
          rcases serviceOps_state hr with h4 | h4
          · rw [h4, h3]; exact .inl key
          · exact .inr h4
        split at hx
        · simp only at hx; rw [hx] at h4; simp at h4
        · simp only at hx
          rename_i e _
          obtain ⟨_, h5 | h5⟩ := shutdownChannel_cases r.1.ctl e <;> rw [h5] at hx
          · rw [hx] at h4; simp at h4
          · cases hx

/-- When the service task of a connected client sees an overdue answer, it closes the connection. -/
theorem C35_closes {cfg : Config} {late t : Nat} {x y : Clocked} {env : Env} (hx : Timed cfg late x)
    (hs : Timed.Step cfg late x t (.service env) y) (hup : Up x) :
    (x.client.ctl.pingTimeout ≠ 0 ∧ x.client.ctl.pingTimeout ≤ env.now ∧ Closes x y) ∨
    (¬(x.client.ctl.pingTimeout ≠ 0 ∧ x.client.ctl.pingTimeout ≤ env.now) ∧ y.client.ctl.state ≠ .cleanDisconnect) := by
  obtain ⟨_, _, h, _⟩ := step_clocks hs
  rcases service_connected h hup.1 hup.2 with ⟨h1, h2⟩ | h1
  · refine .inl ⟨h1.1, h1.2, ?_⟩
    have hl := (reachable_event (timed_reachable hx)).up hup.1
    have hst : (x.client.ctl.emitFinal .pingTimeout).state = .connected := by rw [emitFinal_state]; exact hup.1
    have hev : (x.client.ctl.emitFinal .pingTimeout).events = x.client.ctl.events ++ [.disconnection .pingTimeout] := by
      unfold Control.emitFinal; rw [hl]
    unfold Client.shutdownClean at h2
    rw [show newDisconnect { reasonCode := 141 } = some { reasonCode := 141 } from rfl] at h2
    simp only at h2
    unfold Client.shutdownWith at h2
    rw [if_pos (.inl hst)] at h2
    unfold Closes
    rw [h2]
    exact ⟨⟨_, _, _, rfl, rfl, rfl⟩, rfl, hev⟩
  · exact .inr h1

/-! ## An answer in time prevents that -/

theorem stays_answered {cfg : Config} {late : Nat} {y z : Clocked} (h : Stays cfg late NoneSent y z) :
    z.client.ctl.pingTimeout = y.client.ctl.pingTimeout ∨ z.client.ctl.pingTimeout = 0 := by
  induction h with
  | refl _ => exact .inl rfl
  | step h1 h2 h3 h4 ih =>
    rcases deadline_step h2 h3.1 with ⟨_, _, _, h⟩ | ⟨_, _, h⟩ | ⟨h, _⟩
    · rw [h]; exact ih
    · exact .inr h
    · unfold NoneSent at h4; omega

/-- **C35, third part.** After a PINGRESP, and after a CONNACK, the client does not close the connection because of a
missing answer before it has written another PINGREQ. -/
theorem C35_answered {cfg : Config} {late t t' : Nat} {x y z w : Clocked} {e : Event} {env : Env}
    (hx : Timed cfg late x) (hs : Timed.Step cfg late x t e y) (hup : Up y)
    (hr : isResponse e = true ∨ x.client.ctl.state ≠ .connected) (hz : Stays cfg late NoneSent y z)
    (hw : Timed.Step cfg late z t' (.service env) w) : ¬Closes z w := by
  have h0 : y.client.ctl.pingTimeout = 0 := by
    rcases deadline_step hs hup.1 with ⟨_, h1, h2, _⟩ | ⟨_, _, h1⟩ | ⟨h1, h2, _⟩
    · rcases hr with hr | hr
      · rw [h2] at hr; cases hr
      · exact absurd h1 hr
    · exact h1
    · rcases hr with hr | hr
      · exfalso
        cases e with
        | packet p a n =>
          cases p with
          | pingresp =>
            obtain ⟨_, _, h, _⟩ := step_clocks hs
            cases step_pings h hup.1 with
            | quiet _ h _ _ => exact h _ _ rfl
            | response _ _ _ h =>
              unfold sentPings at h1
              rw [h] at h1
              exact absurd h1 (Nat.lt_irrefl _)
          | _ => cases hr
        | _ => cases hr
      · exact absurd h2 hr
  have h1 : z.client.ctl.pingTimeout = 0 := by
    rcases stays_answered hz with h | h
    · rw [h, h0]
    · exact h
  intro hc
  rcases C35_closes (hz.timed (.step hx hs)) hw hz.up with ⟨h2, _⟩ | ⟨_, h2⟩
  · exact h2 h1
  · exact h2 hc.2.1

/-- The allowance of a client whose keep-alive interval and ping timeout have the widths they have in the code. -/
theorem pingDeadline_eq {ms k now : Nat} (hm : ms < 4294967296) (hk : k < 65536) :
    pingDeadline ms k now = min 18446744073709551615 (now + allowance ms k) := by
  have h1 : Reconnect.convert k 1 1000000000 = k * 1000000000 := by
    have : Reconnect.convert k 1 1000000000 = Reconnect.addSat (Reconnect.mulSat k 1000000000) 0 := by
      unfold Reconnect.convert
      simp [Reconnect.mulSat]
    rw [this]
    unfold Reconnect.addSat Reconnect.mulSat
    omega
  have h2 : Reconnect.convert ms 1000 1000000000 = ms * 1000000 := by
    unfold Reconnect.convert Reconnect.addSat Reconnect.mulSat
    simp only
    omega
  unfold pingDeadline halfKeepAlive allowance
  rw [h1, h2]
  unfold Reconnect.addSat
  congr 2
  by_cases h0 : ms = 0
  · subst h0; simp; omega
  · rw [if_neg h0]; split <;> omega

/-- **C35, third part.** The client does not close the connection for a missing answer before the allowance has passed
since the last PINGREQ it has written, so an answer within the allowance comes in time. -/
theorem C35_not_early {cfg : Config} {late t t' : Nat} {x y z w : Clocked} {e : Event} {env : Env}
    (hx : Timed cfg late x) (hs : Timed.Step cfg late x t e y) (hup : Up y) (hq : sentPings x < sentPings y)
    (hm : cfg.pingTimeoutMs < 4294967296) (hk : keepAlive y < 65536)
    (hz : Stays cfg late NoneSent y z) (hw : Timed.Step cfg late z t' (.service env) w)
    (hn : env.now < t + allowance cfg.pingTimeoutMs (keepAlive y)) (hb : env.now < 18446744073709551615) :
    ¬Closes z w := by
  rcases deadline_step hs hup.1 with ⟨h1, _⟩ | ⟨h1, _⟩ | ⟨_, _, now, h1, h2, h3⟩
  · omega
  · omega
  · rw [pingDeadline_eq hm hk] at h3
    intro hc
    rcases C35_closes (hz.timed (.step hx hs)) hw hz.up with ⟨h4, h5, _⟩ | ⟨_, h4⟩
    · rcases stays_answered hz with h | h
      · omega
      · exact h4 h
    · exact h4 hc.2.1

/-! ## Where the property fails -/

/-- Test of `Up`. -/
def upTest (x : Clocked) : Bool := x.client.ctl.state == .connected && x.client.ctl.desired == .connected

theorem upTest_iff {x : Clocked} : upTest x = true ↔ Up x := by
  unfold upTest Up; simp

theorem trun_stays {cfg : Config} {late : Nat} {ok : Clocked → Event → Clocked → Bool}
    {P : Clocked → Event → Clocked → Prop} {x y : Clocked} {es : List (Nat × TEvent)}
    (h : trun cfg late ok x es = some y) (hok : ∀ a e b, ok a e b = true → Up b ∧ P a e b) (hx : Up x) :
    Stays cfg late P x y := by
  have key : ∀ (es : List (Nat × TEvent)) (w : Clocked), Stays cfg late P x w → trun cfg late ok w es = some y →
      Stays cfg late P x y := by
    intro es
    induction es with
    | nil => intro w hw h; cases h; exact hw
    | cons a es ih =>
      intro w hw h
      rw [trun] at h
      split at h
      · cases h
      · rename_i z hz
        split at h
        · rename_i ho
          exact ih z (.step hw (tstep_step hz).1 (hok _ _ _ ho).1 (hok _ _ _ ho).2) h
        · cases h
  exact key es x (.refl hx) h

/-- No PINGRESP arrives. -/
def NoResponse (_ : Clocked) (e : Event) (_ : Clocked) : Prop := isResponse e = false

/-- The second history of a violation, split at the PINGREQ in question: the test of the first step, the test of the
rest, the test of the state after it and a time at which the next event can start. -/
def probe (cfg : Config) (late : Nat) (pre : List (Nat × TEvent)) (t : Nat) (e : TEvent) (post : List (Nat × TEvent))
    (test : Clocked → Clocked → Clocked → Bool) : Bool :=
  match trun cfg late (fun _ _ _ => true) ⟨Client.new cfg, 1, 0⟩ pre with
  | none => false
  | some x =>
    match tstep cfg late x t e with
    | none => false
    | some y =>
      match trun cfg late (fun _ e b => upTest b && !isResponse e) y post with
      | none => false
      | some z => upTest y && test x y z

theorem probe_sound {cfg : Config} {late t : Nat} {pre post : List (Nat × TEvent)} {e : TEvent}
    {test : Clocked → Clocked → Clocked → Bool} (h : probe cfg late pre t e post test = true) :
    ∃ x y z, Timed cfg late x ∧ Timed.Step cfg late x t (e.at t) y ∧ y.clock = t ∧ Up y ∧
      Stays cfg late NoResponse y z ∧ test x y z = true := by
  unfold probe at h
  split at h
  · cases h
  · rename_i x hx
    split at h
    · cases h
    · rename_i y hy
      split at h
      · cases h
      · rename_i z hz
        simp only [Bool.and_eq_true] at h
        have hup := upTest_iff.1 h.1
        refine ⟨x, y, z, trun_timed hx (.new 1 (by decide)), (tstep_step hy).1, (tstep_step hy).2, hup, ?_, h.2⟩
        refine trun_stays hz (fun a e b hab => ?_) hup
        simp only [Bool.and_eq_true, Bool.not_eq_true'] at hab
        exact ⟨upTest_iff.1 hab.1, hab.2⟩

/-- A second, in nanoseconds. -/
@[irreducible] def second : Nat := 1000000000

/-- A QoS 0 publish, submitted and handed to the socket. -/
def blocked (t : Nat) : List (Nat × TEvent) :=
  [(t, .plain (.submit (publishTo [97] 0) 0 false)), (t, .service)]

/-- **C35 does not hold**: a second PINGREQ moves the deadline of the first. With a keep-alive interval of 60 seconds a
PINGREQ waits for a slow write and is sent at second 118; no PINGRESP arrives. The next PINGREQ is sent at second 120,
and the client is still connected at second 149, although the allowance is 30 seconds. -/
theorem C35_violated_extended : ∃ (cfg : Config) (t : Nat) (x y z : Clocked) (e : Event), Timed cfg 0 x ∧
    Timed.Step cfg 0 x t e y ∧ Up y ∧ sentPings x < sentPings y ∧ Stays cfg 0 NoResponse y z ∧
    z.clock > y.clock + allowance cfg.pingTimeoutMs (keepAlive y) := by
  have h : probe {} 0
      (tconnect { serverKeepAlive := some 60 } ++ blocked (2 * second) ++ [(60 * second + 1, .service),
        (118 * second, .plain (.writeComplete .success))]) (118 * second) .service
      [(118 * second, .plain (.writeComplete .success)), (120 * second + 1, .service),
        (120 * second + 1, .plain (.writeComplete .success)), (149 * second, .plain (.submit (publishTo [97] 0) 0 false))]
      (fun x y z => decide (sentPings x < sentPings y) &&
        decide (z.clock > y.clock + allowance 0 (keepAlive y))) = true := by decide +kernel
  obtain ⟨x, y, z, h1, h2, h3, h4, h5, h6⟩ := probe_sound h
  simp only [Bool.and_eq_true, decide_eq_true_eq] at h6
  exact ⟨{}, _, x, y, z, _, h1, h2, h4, h6.1, h5, h6.2⟩

/-- A connected client with a write that does not complete, after `n + 1` intervals of 60 seconds. -/
structure Stuck (n : Nat) (x : Clocked) : Prop where
  up : Up x
  write : x.client.ops.pendingWrite = true
  acks : x.client.ops.timeouts = []
  timeout : x.client.ctl.pingTimeout = 0
  interval : keepAlive x = 60
  ping : x.client.ctl.nextPing = 60 * second * (n + 2) + 1
  clock : x.clock = 60 * second * (n + 1) + 1
  schedule : x.scheduled = x.client.ctl.nextPing

/-- A service task during which the clock does not move. -/
def steady (t : Nat) : Env := { now := t, loopNow := fun _ => t, pingNow := t, queueNow := t }

theorem blocked_service {c : Client} {env : Env} (hs : c.ctl.state = .connected) (hd : c.ctl.desired = .connected)
    (hw : c.ops.pendingWrite = true) (ha : c.ops.timeouts = []) (ht : c.ctl.pingTimeout = 0)
    (hn : c.ctl.nextPing ≤ env.now) : step {} c (.service env) = .ok (c.queuePing env.queueNow) := by
  change c.service {} env = _
  unfold Client.service
  rw [hs]
  simp only
  unfold Client.serviceConnected
  rw [if_neg (by simp [hd]), if_neg (by simp [ht])]
  simp only [ge_iff_le, hn, if_true]
  have h1 : (c.queuePing env.queueNow).ops.timeouts = [] := ha
  have h2 : (c.queuePing env.queueNow).ops.pendingWrite = true := hw
  generalize c.queuePing env.queueNow = c1 at h1 h2
  have h3 : c1.checkTimeouts env.now = .ok c1 := by
    unfold Client.checkTimeouts
    rw [h1]
    rfl
  have h4 : c1.serviceOps {} env = .ok (c1, none) := by
    unfold Client.serviceOps
    rw [if_pos (by simp [Client.serviceTime, h2])]
  rw [h3]
  simp only
  rw [h4]
  rfl

theorem stuck_time {n : Nat} (hn : n ≤ 1000000) :
    min 18446744073709551615 (60 * second * (n + 2) + 1 + 60 * 1000000000) = 60 * second * (n + 1 + 2) + 1 := by
  unfold second
  omega

theorem stuck_mono (n : Nat) : 60 * second * (n + 1) + 1 ≤ 60 * second * (n + 2) + 1 := by
  unfold second
  omega

theorem stuck_step {n : Nat} {x : Clocked} (hn : n ≤ 1000000) (h : Stuck n x) :
    ∃ t e y, Timed.Step {} 0 x t e y ∧ Stuck (n + 1) y ∧ isResponse e = false := by
  obtain ⟨⟨h1, h2⟩, h3, h4, h5, h6, h7, h8, h9⟩ := h
  have hq := queuePing_nextPing x.client x.client.ctl.nextPing
  have hstate : (x.client.queuePing x.client.ctl.nextPing).ctl.state = .connected := by
    rw [← h1]; exact resetPing_state ..
  have hdes : (x.client.queuePing x.client.ctl.nextPing).ctl.desired = .connected := by
    rw [← h2]
    change (x.client.ctl.resetPing _).desired = _
    unfold Control.resetPing
    generalize pingDue x.client.ctl.settings.serverKeepAlive x.client.ctl.nextPing = d
    rfl
  have hs := blocked_service (c := x.client) (env := steady x.client.ctl.nextPing) h1 h2 h3 h4 h5 (Nat.le_refl _)
  have hp : (x.client.queuePing x.client.ctl.nextPing).ctl.nextPing = 60 * second * (n + 1 + 2) + 1 := by
    rw [hq.1]
    have h60 : x.client.ctl.settings.serverKeepAlive = 60 := h6
    rw [h60, pingDue_eq (by decide) (by decide), h7, stuck_time hn]
  have hto : (x.client.queuePing x.client.ctl.nextPing).ops.timeouts = [] := h4
  have hpw : (x.client.queuePing x.client.ctl.nextPing).ops.pendingWrite = true := h3
  have hpt : (x.client.queuePing x.client.ctl.nextPing).ctl.pingTimeout = 0 := by rw [hq.2.2.1, h5]
  have hka : (x.client.queuePing x.client.ctl.nextPing).ctl.settings.serverKeepAlive = 60 := by rw [hq.2.1]; exact h6
  rw [show (steady x.client.ctl.nextPing).queueNow = x.client.ctl.nextPing from rfl] at hs
  generalize x.client.queuePing x.client.ctl.nextPing = c at *
  have hnx : c.nextService {} {} x.client.ctl.nextPing = c.ctl.nextPing := by
    unfold Client.nextService
    rw [hstate]
    unfold Client.connectedTime
    have h1 : c.ackDue = 0 := by unfold Client.ackDue; rw [hto]; rfl
    have h2 : c.serviceTime {} ({} : Waits).throughput ({} : Waits).publish x.client.ctl.nextPing = none := by
      simp [Client.serviceTime, hpw]
    simp only [hpt, ne_eq, not_true, if_false, h1, h2, hdes, Option.getD_none]
    unfold minNonZero
    have : 0 < c.ctl.nextPing := by rw [hp]; omega
    simp only [if_true]
    split <;> omega
  refine ⟨x.client.ctl.nextPing, .service (steady x.client.ctl.nextPing), ⟨c, x.client.ctl.nextPing, c.ctl.nextPing⟩, ?_, ⟨⟨hstate, hdes⟩, hpw, hto, hpt, hka,
    hp, by simp only; rw [h7, Nat.add_assoc n 1 1], rfl⟩, rfl⟩
  have hstep := Timed.Step.mk (cfg := {}) (late := 0) (x := x) (t := x.client.ctl.nextPing)
    (t' := x.client.ctl.nextPing) (now := x.client.ctl.nextPing) {}
    ⟨by rw [h7, h8]; exact stuck_mono n, fun _ => by rw [h9]; exact Nat.le_refl _⟩
    (by simp [Enabled, h1]) hs ⟨⟨Nat.le_refl _, Nat.le_refl _⟩, ⟨Nat.le_refl _, Nat.le_refl _⟩,
      ⟨Nat.le_refl _, Nat.le_refl _⟩, fun _ => ⟨Nat.le_refl _, Nat.le_refl _⟩⟩ (Nat.le_refl _) (Nat.le_refl _)
  rw [if_pos (by simp [reevaluates, hstate]), reevaluate_eq, hnx] at hstep
  exact hstep

theorem stuck_stays {y : Clocked} (hy : Stuck 0 y) (n : Nat) (hn : n ≤ 1000000) :
    ∃ z, Stays {} 0 NoResponse y z ∧ Stuck n z := by
  induction n with
  | zero => exact ⟨y, .refl hy.up, hy⟩
  | succ n ih =>
    obtain ⟨z, h1, h2⟩ := ih (by omega)
    obtain ⟨t, e, w, h3, h4, h5⟩ := stuck_step (by omega) h2
    exact ⟨w, .step h1 h3 h4.up h5, h4⟩

/-- **C35 does not hold**: when a write does not complete, PINGREQ packets are queued but not written, and the client
never notices that none is answered. With a keep-alive interval of 60 seconds it can still be connected a million
intervals after a PINGREQ that has not been answered. -/
theorem C35_violated_blocked (n : Nat) (hn : n ≤ 1000000) : ∃ (t : Nat) (x y z : Clocked) (e : Event), Timed {} 0 x ∧
    Timed.Step {} 0 x t e y ∧ Up y ∧ queuedPings x < queuedPings y ∧ keepAlive y = 60 ∧ Stays {} 0 NoResponse y z ∧
    z.clock ≥ y.clock + n * 60 * second := by
  have h : probe {} 0 (tconnect { serverKeepAlive := some 60 } ++ blocked (2 * second)) (60 * second + 1) .service []
      (fun x y _ => decide (queuedPings x < queuedPings y) && decide (y.client.ops.pendingWrite = true) &&
        decide (y.client.ops.timeouts = []) && decide (y.client.ctl.pingTimeout = 0) && decide (keepAlive y = 60) &&
        decide (y.client.ctl.nextPing = 60 * second * 2 + 1) && decide (y.scheduled = y.client.ctl.nextPing)) = true := by
    decide +kernel
  obtain ⟨x, y, _, h1, h2, h3, h4, _, h6⟩ := probe_sound h
  simp only [Bool.and_eq_true, decide_eq_true_eq] at h6
  obtain ⟨⟨⟨⟨⟨⟨a1, a2⟩, a3⟩, a4⟩, a5⟩, a6⟩, a7⟩ := h6
  have hy : Stuck 0 y := ⟨h4, a2, a3, a4, a5, by unfold second at a6 ⊢; omega,
    by unfold second at h3 ⊢; omega, a7⟩
  obtain ⟨z, h5, h7⟩ := stuck_stays hy n hn
  refine ⟨_, x, y, z, _, h1, h2, h4, a1, a5, h5, ?_⟩
  have h8 := h7.clock
  unfold second at h3 h8 ⊢
  omega

/-! ## Not vacuous -/

/-- Connect, send a PINGREQ after 60 seconds, and close the connection 30 seconds later for want of an answer. -/
example : (trun {} 0 (fun _ _ _ => true) ⟨Client.new {}, 1, 0⟩ (tconnect { serverKeepAlive := some 60 } ++
    [(60 * second + 1, .service), (61 * second, .plain (.writeComplete .success)), (90 * second + 1, .service)])).any
    (fun x => decide (sentPings x = 1) && decide (x.client.ctl.state = .cleanDisconnect) &&
      decide (x.client.ctl.events = [.attempting, .success, .disconnection .pingTimeout])) = true := by decide +kernel

/-- The same with an answer: the client stays connected and sends its second PINGREQ after 120 seconds. -/
example : (trun {} 0 (fun _ _ _ => true) ⟨Client.new {}, 1, 0⟩ (tconnect { serverKeepAlive := some 60 } ++
    [(60 * second + 1, .service), (61 * second, .plain (.writeComplete .success)), (62 * second, .packet .pingresp),
      (90 * second + 1, .service), (120 * second + 1, .service)])).any
    (fun x => decide (sentPings x = 2) && upTest x && decide (queuedPings x = 2)) = true := by decide +kernel

/-- A ping timeout of 5 seconds. -/
example : (trun { pingTimeoutMs := 5000 } 0 (fun _ _ _ => true) ⟨Client.new {}, 1, 0⟩
    (tconnect { serverKeepAlive := some 60 } ++
    [(60 * second + 1, .service), (61 * second, .plain (.writeComplete .success)), (65 * second + 1, .service)])).any
    (fun x => decide (x.client.ctl.state = .cleanDisconnect)) = true := by decide +kernel

end Mqtt.Props
