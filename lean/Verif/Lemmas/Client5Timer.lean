import Verif.Lemmas.Client5Ping

/-!
When the service task of a connected MQTT 5 client runs.
-/
namespace Mqtt.Client5

open Mqtt.V5

theorem minNonZero_pos {a b : Nat} (h : 0 < b) : 0 < minNonZero a b := by
  unfold minNonZero; split
  · exact h
  · split <;> omega

theorem minNonZero_left {a b : Nat} (h : 0 < a) : 0 < minNonZero a b := by
  unfold minNonZero; split
  · omega
  · split <;> omega

theorem minNonZero_le {a b : Nat} (h : 0 < b) : minNonZero a b ≤ b := by
  unfold minNonZero; split
  · exact Nat.le_refl _
  · split <;> omega

theorem minNonZero_le_left {a b : Nat} (h : 0 < a) : minNonZero a b ≤ a := by
  unfold minNonZero; split
  · omega
  · split <;> omega

theorem reevaluate_eq (s n : Nat) : reevaluate s n = n := by
  unfold reevaluate
  simp only
  split <;> split <;> omega

theorem shutdownChannel_wants (k : Control) (e : Error) : (k.shutdownChannel e).desired = k.desired := by
  unfold Control.shutdownChannel
  generalize (if e = .success then Error.other 0 else e) = e
  dsimp only
  split
  · exact emitFinal_desired ..
  · split
    · exact emitFinal_desired ..
    · exact emitFinal_desired ..

theorem shutdownClean_wants (c : Client) (e : Error) (r : Nat) : (c.shutdownClean e r).ctl.desired = c.ctl.desired := by
  unfold Client.shutdownClean Client.shutdownWith
  split
  · exact shutdownChannel_wants ..
  · split
    · rfl
    · exact shutdownChannel_wants ..

/-- When the service task is not scheduled again. -/
theorem idle_step {cfg : Config} {c c' : Client} {e : Event} (h : step cfg c e = .ok c')
    (hs : c'.ctl.state = .connected) (hr : reevaluates cfg c e c' = false) :
    c'.ctl.desired = c.ctl.desired ∧ (∀ env, e ≠ .service env) ∧ (∀ p a n, e ≠ .packet p a n) := by
  cases e with
  | submit p t x =>
    injection h with h
    subst h
    refine ⟨?_, by simp, by simp⟩
    unfold Client.submit
    split
    · rfl
    · split <;> rfl
  | setDesired d v =>
    injection h with h
    subst h
    have hd : c.ctl.desired = d := by simpa [reevaluates] using hr
    refine ⟨?_, by simp, by simp⟩
    unfold Client.setDesired
    rw [if_pos hd]
  | service env => simp [reevaluates, hs] at hr
  | setup err now => simp [reevaluates] at hr
  | shutdown e => simp [reevaluates] at hr
  | writeComplete e =>
    have h1 : c.ctl.state = .connected := by
      cases step_pings h hs with
      | quiet h => exact h
    simp [reevaluates, h1, State.open] at hr
  | packet p a now => simp [reevaluates] at hr
  | readFailed e =>
    injection h with h
    subst h
    refine ⟨?_, by simp, by simp⟩
    unfold Client.readFailed
    split
    · exact shutdownClean_wants ..
    · exact shutdownChannel_wants ..
  | invoke ctl =>
    injection h with h
    subst h
    exact ⟨rfl, by simp, by simp⟩
  | resetConnection =>
    injection h with h
    subst h
    refine ⟨?_, by simp, by simp⟩
    unfold Client.resetConnection
    split
    · exact shutdownChannel_wants ..
    · exact shutdownChannel_wants ..
    · rfl
    · rfl

theorem addSat_pos {a b : Nat} (h : 0 < a) : 0 < Reconnect.addSat a b := by
  unfold Reconnect.addSat; omega

theorem addSat_le (a b : Nat) : Reconnect.addSat a b ≤ a + b := by unfold Reconnect.addSat; omega

theorem pingDue_pos {k now : Nat} (h : 0 < now) : 0 < pingDue k now := by
  unfold pingDue
  split
  · decide
  · exact addSat_pos h

/-- The timer of a connected client. -/
structure TimerInv (x : Clocked) : Prop where
  clock : 0 < x.clock
  ping : x.client.ctl.state = .connected → 0 < x.client.ctl.nextPing
  runs : x.client.ctl.state = .connected → 0 < x.scheduled
  due : x.client.ctl.state = .connected → x.client.ctl.desired = .connected →
    x.scheduled ≤ x.client.ctl.nextPing ∧ (x.client.ctl.pingTimeout ≠ 0 → x.scheduled ≤ x.client.ctl.pingTimeout)

theorem nextService_connected {cfg : Config} {c : Client} {w : Waits} {now : Nat} (hs : c.ctl.state = .connected)
    (hn : 0 < now) (hp : 0 < c.ctl.nextPing) :
    0 < c.nextService cfg w now ∧ (c.ctl.desired = .connected → c.nextService cfg w now ≤ c.ctl.nextPing ∧
      (c.ctl.pingTimeout ≠ 0 → c.nextService cfg w now ≤ c.ctl.pingTimeout)) := by
  unfold Client.nextService
  rw [hs]
  unfold Client.connectedTime
  simp only
  generalize hd : (if c.ctl.pingTimeout ≠ 0 then min c.ctl.nextPing c.ctl.pingTimeout else c.ctl.nextPing) = d
  have h1 : 0 < d ∧ d ≤ c.ctl.nextPing ∧ (c.ctl.pingTimeout ≠ 0 → d ≤ c.ctl.pingTimeout) := by
    rw [← hd]; split <;> omega
  generalize (c.serviceTime cfg w.throughput w.publish now).getD 0 = st
  have h2 := minNonZero_left (b := c.ackDue) h1.1
  have h3 := minNonZero_le_left (b := c.ackDue) h1.1
  generalize minNonZero d c.ackDue = d2 at h2 h3
  refine ⟨minNonZero_pos (minNonZero_pos ?_), fun hc => ?_⟩
  · split <;> omega
  · simp only [hc, ne_eq, not_true, if_false]
    have h4 := minNonZero_le (a := st) h2
    have h5 := minNonZero_le (a := w.resetAt) (minNonZero_pos (a := st) h2)
    exact ⟨by omega, fun hp => by have := h1.2.2 hp; omega⟩

theorem pings_nextPing {cfg : Config} {t : Nat} {c c' : Client} (h : Pings cfg t c c') :
    c'.ctl.nextPing = c.ctl.nextPing := by
  obtain ⟨_, _, _, h, _⟩ := h; exact h

theorem resetPing_ping (k : Control) (now : Nat) :
    (k.resetPing now).nextPing = pingDue k.settings.serverKeepAlive now ∧ (k.resetPing now).settings = k.settings ∧
      (k.resetPing now).pingTimeout = k.pingTimeout := by
  unfold Control.resetPing
  generalize pingDue k.settings.serverKeepAlive now = d
  exact ⟨rfl, rfl, rfl⟩

theorem queuePing_nextPing (c : Client) (now : Nat) :
    (c.queuePing now).ctl.nextPing = pingDue c.ctl.settings.serverKeepAlive now ∧
    (c.queuePing now).ctl.settings = c.ctl.settings ∧ (c.queuePing now).ctl.pingTimeout = c.ctl.pingTimeout ∧
    (c.queuePing now).ops.log = c.ops.log ++ [.pingQueued c.ops.nextUid] := by
  have h := resetPing_ping c.ctl now
  unfold Client.queuePing
  generalize c.ctl.resetPing now = k at h
  exact ⟨h.1, h.2.1, h.2.2, rfl⟩

theorem pingStep_pos {cfg : Config} {c c' : Client} {e : Event} {t t' : Nat} (h : PingStep cfg c e c')
    (hc : c.ctl.state = .connected → 0 < c.ctl.nextPing) (ht : 0 < t) (hr : Reads t t' e) : 0 < c'.ctl.nextPing := by
  cases h with
  | quiet h1 _ _ h2 => rw [h2.2.2.1]; exact hc h1
  | response a n h1 h2 => subst h2; exact hc h1
  | service env h1 _ _ h2 =>
    rw [pings_nextPing h2]
    split
    · rw [(queuePing_nextPing ..).1]
      have : t ≤ env.queueNow := hr.2.1.1
      exact pingDue_pos (by omega)
    · exact hc h1
  | connack v a now _ _ h2 _ =>
    rw [h2]
    have : t ≤ now := hr.1
    exact pingDue_pos (by omega)

theorem timer_step {cfg : Config} {late t : Nat} {x y : Clocked} {e : Event} (hi : TimerInv x)
    (h : Timed.Step cfg late x t e y) : TimerInv y := by
  cases h with
  | @mk _ t' now c' w hst hen hstep hr hn1 hn2 =>
    have ht : 0 < t := by have := hst.1; have := hi.clock; omega
    have hpos : c'.ctl.state = .connected → 0 < c'.ctl.nextPing := fun hs =>
      pingStep_pos (step_pings hstep hs) hi.ping ht hr
    refine ⟨by simp only; omega, hpos, fun hs => ?_, fun hs hd => ?_⟩
    · simp only
      by_cases hre : reevaluates cfg x.client e c' = true
      · rw [if_pos hre, reevaluate_eq]
        exact (nextService_connected hs (by omega) (hpos hs)).1
      · rw [if_neg hre]
        have hre : reevaluates cfg x.client e c' = false := by simpa using hre
        obtain ⟨_, h2, h3⟩ := idle_step hstep hs hre
        have h4 : x.client.ctl.state = .connected := by
          cases step_pings hstep hs with
          | quiet h => exact h
          | response a n => exact absurd rfl (h3 _ _ _)
          | service env => exact absurd rfl (h2 _)
          | connack v a now => exact absurd rfl (h3 _ _ _)
        cases e <;> first | exact hi.runs h4 | exact absurd rfl (h2 _)
    · simp only
      by_cases hre : reevaluates cfg x.client e c' = true
      · rw [if_pos hre, reevaluate_eq]
        exact (nextService_connected hs (by omega) (hpos hs)).2 hd
      · rw [if_neg hre]
        have hre : reevaluates cfg x.client e c' = false := by simpa using hre
        obtain ⟨h1, h2, h3⟩ := idle_step hstep hs hre
        have h4 : x.client.ctl.state = .connected ∧ Quiet x.client c' := by
          cases step_pings hstep hs with
          | quiet h _ _ hq => exact ⟨h, hq⟩
          | response a n => exact absurd rfl (h3 _ _ _)
          | service env => exact absurd rfl (h2 _)
          | connack v a now => exact absurd rfl (h3 _ _ _)
        have h5 := hi.due h4.1 (h1 ▸ hd)
        rw [h4.2.2.2.1, h4.2.2.2.2]
        cases e <;> first | exact h5 | exact absurd rfl (h2 _)

theorem timed_timer {cfg : Config} {late : Nat} {x : Clocked} (h : Timed cfg late x) : TimerInv x := by
  induction h with
  | new t ht => exact ⟨ht, by simp [Client.new], by simp [Client.new], by simp [Client.new]⟩
  | step _ h ih => exact timer_step ih h

theorem timed_reachable {cfg : Config} {late : Nat} {x : Clocked} (h : Timed cfg late x) :
    Reachable cfg x.client := by
  induction h with
  | new t => exact .new
  | step _ h ih =>
    cases h with
    | mk w hst hen hstep => exact .step ih hen hstep

end Mqtt.Client5
