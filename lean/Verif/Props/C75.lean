import Verif.Props.C35
import Verif.Lemmas.Client5Connack

/-!
C75: the CONNACK timeout of the MQTT 5 client.

`late` is how far the event loop can be behind with the service task of the client. `Awaits` is in
`Verif/Spec/Connack5.lean`.
-/
namespace Mqtt.Props

open Mqtt.V5 Mqtt.Client5

theorem convert_millis {ms : Nat} (h : ms < 4294967296) : Reconnect.convert ms 1000 1000000000 = ms * 1000000 := by
  unfold Reconnect.convert Reconnect.addSat Reconnect.mulSat
  simp only
  omega

/-- The timeout of a client made from options is the documented one. -/
theorem connackNs_stored {portOk : Nat → Nat → Bool} {uuid : Bytes} {o : Options5.Options} {s : Options5.Storage}
    (h : Options5.store portOk uuid o = some s) (hm : o.connackTimeoutMs < 4294967296) :
    connackNs s.client = connackWait o := by
  unfold Options5.store at h
  split at h
  · cases h
  · split at h
    · cases h
    · simp only [Option.some.injEq] at h
      have h1 : s.client.connackTimeoutMs = if o.connackTimeoutMs = 0 then 20000 else o.connackTimeoutMs := by rw [← h]
      unfold connackNs connackWait
      rw [h1]
      by_cases h0 : o.connackTimeoutMs = 0
      · simp only [h0, if_true]
        rw [if_neg (by decide), convert_millis (by decide)]
      · simp only [h0, if_false]
        exact convert_millis hm

/-- A client that waits for a CONNACK waits since the setup of its connection. -/
theorem C75_waits {cfg : Config} {late : Nat} {x : Clocked} (h : Timed cfg late x)
    (hs : x.client.ctl.state = .mqttConnect) : ∃ b b', Awaits cfg late b b' x := awaits_of h hs

/-- Nothing happens while a client waits longer than the timeout: its service task runs in time. -/
theorem C75_late {portOk : Nat → Nat → Bool} {uuid : Bytes} {o : Options5.Options} {s : Options5.Storage}
    (ho : Options5.store portOk uuid o = some s) (hm : o.connackTimeoutMs < 4294967296) {late b b' t : Nat} {x : Clocked}
    (h : Awaits s.client late b b' x) (hd : x.client.ctl.desired = .connected) (ht : Starts late x t) :
    t ≤ b' + connackWait o + late := by
  have h1 := awaits_deadline h
  have h2 := (connack_inv h.timed).runs h1.1 hd
  have h3 := ht.2 (by omega)
  rw [connackNs_stored ho hm] at h1
  omega

/-- A service task that runs after the timeout closes the channel and reports the timeout, unless the attempt has been
reported as ended before, when the client was stopped and started again. -/
theorem C75_closes {portOk : Nat → Nat → Bool} {uuid : Bytes} {o : Options5.Options} {s : Options5.Storage}
    (ho : Options5.store portOk uuid o = some s) (hm : o.connackTimeoutMs < 4294967296) {late b b' t : Nat}
    {x y : Clocked} {env : Env} (h : Awaits s.client late b b' x) (hd : x.client.ctl.desired = .connected)
    (hs : Timed.Step s.client late x t (.service env) y) (hn : b' + connackWait o ≤ env.now) :
    y.client.ctl.state = .channelShutdown ∧
    (y.client.ctl.events = x.client.ctl.events ++ [.failure .connackTimeout] ∨
     y.client.ctl.events = x.client.ctl.events ∧ follow true x.client.ctl.events = some (.idle true)) := by
  have h1 := awaits_deadline h
  rw [connackNs_stored ho hm] at h1
  obtain ⟨_, _, hstep, _⟩ := step_clocks hs
  have hev := reachable_event (timed_reachable h.timed)
  have hsl := hev.opened (by rw [h1.1]; rfl)
  have hb := (reachable_safe (timed_reachable h.timed)).life.before (.inr h1.1)
  simp only [Client5.step, Client.service, h1.1, Client.serviceMqttConnect, hd, ne_eq, not_true, if_false] at hstep
  rw [if_pos (by omega)] at hstep
  injection hstep with hstep
  rw [← hstep]
  obtain ⟨e', he⟩ := shutdownChannel_eq (x.client.ctl.emitFinal .connackTimeout) .connackTimeout
  simp only
  rw [he, emitFinal_state, emitFinal_slot, h1.1, hsl, if_pos (by rfl), emitFinal_none (emitFinal_lifecycle ..)]
  refine ⟨rfl, ?_⟩
  simp only
  unfold Control.emitFinal
  split
  · rename_i hl
    exact .inr ⟨rfl, hev.early (.inr h1.1) hl⟩
  · exact .inl rfl
  · rename_i hl; exact absurd hl hb

/-- A service task that runs before the timeout does not report it, unless the channel refuses a message with that
error. -/
theorem C75_early {portOk : Nat → Nat → Bool} {uuid : Bytes} {o : Options5.Options} {s : Options5.Storage}
    (ho : Options5.store portOk uuid o = some s) (hm : o.connackTimeoutMs < 4294967296) {late b b' t : Nat}
    {x y : Clocked} {env : Env} (h : Awaits s.client late b b' x)
    (hs : Timed.Step s.client late x t (.service env) y) (hn : env.now < b + connackWait o)
    (he : env.sendFails ≠ some .connackTimeout) :
    ∃ new, y.client.ctl.events = x.client.ctl.events ++ new ∧ .failure .connackTimeout ∉ new := by
  have h1 := awaits_deadline h
  rw [connackNs_stored ho hm] at h1
  obtain ⟨_, _, hstep, _⟩ := step_clocks hs
  simp only [Client5.step, Client.service, h1.1, Client.serviceMqttConnect] at hstep
  split at hstep
  · injection hstep with hstep
    rw [← hstep]
    exact (emitFinal_mild (by simp) _).trans (shutdownChannel_mild (by simp) _)
  · rw [if_neg (by omega)] at hstep
    split at hstep
    · cases hstep
    · rename_i r hr
      injection hstep with hstep
      rw [← hstep]
      have h2 := serviceOps_mild hr he
      exact h2.1.trans (afterService_mild h2.2)

/-! ## Examples -/

/-- Options with everything that has to be there. -/
def plainOptions : Options5.Options :=
  { hostName := [97], bootstrap := true, connect := some {}, publishHandler := true, lifecycleHandler := true }

/-- The client of these options. -/
def plainStorage : Options5.Storage := ((Options5.store (fun _ _ => true) [] plainOptions).getD
  { client := {}, retry := {}, aliasing := {}, metrics := none })

example : Options5.store (fun _ _ => true) [] plainOptions = some plainStorage ∧ connackWait plainOptions = 20 * second := by
  decide +kernel

/-- A connection is set up and CONNECT is sent; no CONNACK comes within 20 seconds. -/
example : (trun plainStorage.client 0 (fun _ _ _ => true) ⟨Client.new plainStorage.client, 1, 0⟩
    [(1, .plain (.setDesired .connected none)), (1, .service), (5, .setup), (5, .service),
      (6, .plain (.writeComplete .success))]).any
    (fun x => decide (x.client.ctl.state = .mqttConnect) && decide (x.client.ctl.desired = .connected) &&
      decide (x.scheduled = 20 * second + 5)) = true := by decide +kernel

example : (trun plainStorage.client 0 (fun _ _ _ => true) ⟨Client.new plainStorage.client, 1, 0⟩
    [(1, .plain (.setDesired .connected none)), (1, .service), (5, .setup), (5, .service),
      (6, .plain (.writeComplete .success)), (20 * second + 5, .service)]).any
    (fun x => decide (x.client.ctl.state = .channelShutdown) &&
      decide (x.client.ctl.events = [.attempting, .failure .connackTimeout])) = true := by decide +kernel

/-- The event loop runs the service task a nanosecond early: nothing happens. -/
example : (trun plainStorage.client 0 (fun _ _ _ => true) ⟨Client.new plainStorage.client, 1, 0⟩
    [(1, .plain (.setDesired .connected none)), (1, .service), (5, .setup), (5, .service),
      (6, .plain (.writeComplete .success)), (20 * second + 4, .service)]).any
    (fun x => decide (x.client.ctl.state = .mqttConnect) && decide (x.client.ctl.events = [.attempting])) = true := by
  decide +kernel

end Mqtt.Props
