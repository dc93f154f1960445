import Verif.Client5

/-!
When the MQTT 5 client runs its service task (source/v5/mqtt5_client.c:395-567), and histories with clock
readings.
-/
namespace Mqtt.Client5

open Mqtt.V5

/-- What the computation reads besides the client: the waits given by the rate limiters,
`next_reconnect_delay_reset_time_ns` and `next_reconnect_time_ns`. -/
structure Waits where
  throughput : Nat := 0
  publish : Nat := 0
  resetAt : Nat := 0
  reconnectAt : Nat := 0

/-- `s_min_non_zero_u64` (430-440). -/
def minNonZero (a b : Nat) : Nat := if a = 0 then b else if b = 0 then a else min a b

/-- `s_get_unacked_operation_timeout_for_next_service_time` (445-453). -/
def Client.ackDue (c : Client) : Nat :=
  match earliest c.ops.unacked c.ops.timeouts with
  | none => 0
  | some u => deadlineOf c.ops.unacked u

/-- `s_compute_next_service_time_client_connected` (455-479). -/
def Client.connectedTime (cfg : Config) (c : Client) (w : Waits) (now : Nat) : Nat :=
  let t := if c.ctl.pingTimeout ≠ 0 then min c.ctl.nextPing c.ctl.pingTimeout else c.ctl.nextPing
  let t := minNonZero t c.ackDue
  let t := if c.ctl.desired ≠ .connected then now else t
  minNonZero w.resetAt (minNonZero ((c.serviceTime cfg w.throughput w.publish now).getD 0) t)

/-- `s_compute_next_service_time_by_current_state` (395-533); 0 is never. -/
def Client.nextService (cfg : Config) (c : Client) (w : Waits) (now : Nat) : Nat :=
  match c.ctl.state with
  | .stopped => if c.ctl.desired ≠ .stopped then now else 0
  | .mqttConnect =>
    if c.ctl.desired ≠ .connected then now
    else if (c.serviceTime cfg w.throughput w.publish now).getD 0 = 0 then c.ctl.connackDeadline
    else min c.ctl.connackDeadline ((c.serviceTime cfg w.throughput w.publish now).getD 0)
  | .connected => c.connectedTime cfg w now
  | .cleanDisconnect => minNonZero c.ackDue ((c.serviceTime cfg w.throughput w.publish now).getD 0)
  | .pendingReconnect => if c.ctl.desired ≠ .connected then now else w.reconnectAt
  | _ => 0

/-- `s_reevaluate_service_task` (535-567): the time for which the task is scheduled before and after, and whether the
task is in the event loop; a task scheduled earlier is cancelled first. -/
def reevaluate (scheduled next : Nat) : Nat :=
  let s := if next ≠ scheduled ∧ scheduled > 0 then 0 else scheduled               -- 551-556
  let s := if next > 0 ∧ (next < s ∨ s = 0) then next else s                       -- 558-564
  s

/-- Does the event end with `s_reevaluate_service_task`? Queueing an operation does (578, 590, 1900), as do a change of
state (1431), the end of the service task (1635), a write completion with an open channel (1142, 1151), a packet
(2003) and a change of the desired state (2194). -/
def reevaluates (cfg : Config) (c : Client) (e : Event) (c' : Client) : Bool :=
  match e with
  | .submit p _ cancelled => !cancelled && (c.ctl.state == .connected || retained cfg.offline p)
  | .setDesired d _ => c.ctl.desired != d
  | .service _ => c'.ctl.state != .terminated
  | .setup _ _ => true
  | .shutdown _ => true
  | .writeComplete _ => c.ctl.state.open
  | .packet _ _ _ => true
  | .readFailed _ => c'.ctl.state != c.ctl.state
  | .invoke ctl => (c.ops.manualCtl.get ctl).isSome
  | .resetConnection => c'.ctl.state != c.ctl.state

/-- A client, the time at which its last event ended, and the time for which the service task is scheduled (0 for
never). -/
structure Clocked where
  client : Client
  clock : Nat
  scheduled : Nat

/-- An event can start at this time: time does not go back, and the event loop is at most `late` behind with a
scheduled service task. -/
def Starts (late : Nat) (x : Clocked) (t : Nat) : Prop :=
  x.clock ≤ t ∧ (x.scheduled ≠ 0 → t ≤ x.scheduled + late)

/-- The clock readings of an event. -/
def Reads (t t' : Nat) : Event → Prop
  | .service env => (t ≤ env.now ∧ env.now ≤ t') ∧ (t ≤ env.queueNow ∧ env.queueNow ≤ t') ∧
      (t ≤ env.pingNow ∧ env.pingNow ≤ t') ∧ ∀ k, t ≤ env.loopNow k ∧ env.loopNow k ≤ t'
  | .setup _ now => t ≤ now ∧ now ≤ t'
  | .packet _ _ now => t ≤ now ∧ now ≤ t'
  | _ => True

/-- One event, from time `t` to time `t'`. -/
inductive Timed.Step (cfg : Config) (late : Nat) (x : Clocked) : Nat → Event → Clocked → Prop where
  | mk {t t' now : Nat} {e : Event} {c' : Client} (w : Waits) : Starts late x t → Enabled x.client e →
      step cfg x.client e = .ok c' → Reads t t' e → t ≤ now → now ≤ t' →
      Step cfg late x t e ⟨c', t', if reevaluates cfg x.client e c' then
        reevaluate (match e with | .service _ => 0 | _ => x.scheduled) (c'.nextService cfg w now) else
          (match e with | .service _ => 0 | _ => x.scheduled)⟩

/-- Clients with clocks that histories lead to. -/
inductive Timed (cfg : Config) (late : Nat) : Clocked → Prop where
  | new (t : Nat) : 0 < t → Timed cfg late ⟨Client.new cfg, t, 0⟩
  | step {x y : Clocked} {t : Nat} {e : Event} : Timed cfg late x → Timed.Step cfg late x t e y → Timed cfg late y

end Mqtt.Client5
