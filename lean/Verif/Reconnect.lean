import Verif.Basic

/-!
Reconnect back-off of both clients.

MQTT 5: source/v5/mqtt5_client.c:1264-1278, 1322-1372, 1526-1536, 3757-3760 and
source/v5/mqtt5_utils.c:401-425; defaults source/v5/mqtt5_options_storage.c:3842-3856.
MQTT 3.1.1: source/client.c:73-86, 278-296, 778-783, 1118-1160, 3720-3722 and
source/client_channel_handler.c:198.

Library functions used: saturating `u64` arithmetic, and `aws_timestamp_convert`, which splits the
tick count into whole seconds and a remainder and multiplies with saturation (aws-c-common
clock.inl).  `aws_device_random_u64` is an oracle: an arbitrary 64 bit number, or failure.
-/
namespace Mqtt.Reconnect

/-- `UINT64_MAX`. -/
scoped notation "u64max" => 18446744073709551615

/-- `aws_add_u64_saturating`, `aws_mul_u64_saturating`. -/
def addSat (a b : Nat) : Nat := min u64max (a + b)
def mulSat (a b : Nat) : Nat := min u64max (a * b)

/-- `aws_timestamp_convert`: ticks at `old` per second to ticks at `new` per second. -/
def convert (ticks old new : Nat) : Nat :=
  let seconds := ticks / old
  let remainder := ticks - seconds * old
  addSat (mulSat seconds new) (mulSat remainder new / old)

/-- `aws_mqtt5_client_random_in_range` (mqtt5_utils.c:401-425). -/
def randomInRange (a b : Nat) (draw : Option Nat) : Nat :=
  let hi := max a b
  let lo := min a b
  let diff := hi - lo
  if diff = 0 then lo
  else match draw with
    | none => lo
    | some r => if diff = u64max then r else lo + r % (diff + 1)

/-- `enum aws_exponential_backoff_jitter_mode`; DEFAULT is treated as FULL (1355-1359). -/
inductive Jitter
  | default | none | full | decorrelated
deriving DecidableEq, Repr

/-- The options that matter here; `uint64_t` milliseconds. -/
structure Config where
  jitter : Jitter := .default
  minDelay : Nat := 0
  maxDelay : Nat := 0
  resetAfter : Nat := 0
deriving DecidableEq, Repr

/-- `s_apply_zero_valued_defaults_to_client_options_storage` (3842-3856). -/
def Config.withDefaults (c : Config) : Config :=
  { c with
    minDelay := if c.minDelay = 0 then 1000 else c.minDelay
    maxDelay := if c.maxDelay = 0 then 120000 else c.maxDelay
    resetAfter := if c.resetAfter = 0 then 30000 else c.resetAfter }

/-- `reconnect_count`, `current_reconnect_delay_ms`, `next_reconnect_delay_reset_time_ns`,
`next_reconnect_time_ns`; all zero in a new client. -/
structure State where
  count : Nat := 0
  current : Nat := 0
  resetAt : Nat := 0
  nextAt : Nat := 0
deriving DecidableEq, Repr

/-- `s_aws_mqtt5_compute_reconnect_backoff_no_jitter` (1322-1325). -/
def noJitter (c : Config) (s : State) : Nat :=
  mulSat (2 ^ min s.count 63) c.minDelay

/-- `s_aws_mqtt5_compute_reconnect_backoff_full_jitter` (1327-1330). -/
def fullJitter (c : Config) (s : State) (draw : Option Nat) : Nat :=
  randomInRange 0 (noJitter c s) draw

/-- `s_compute_deccorelated_jitter` (1332-1341). -/
def decorrelated (c : Config) (s : State) (draw : Option Nat) : Nat :=
  if s.current = 0 then fullJitter c s draw
  else randomInRange c.minDelay (mulSat s.current 3) draw

/-- The delay in milliseconds computed by `s_update_reconnect_delay_for_pending_reconnect`
(1343-1362). -/
def delay (c : Config) (s : State) (draw : Option Nat) : Nat :=
  min (match c.jitter with
    | .decorrelated => decorrelated c s draw
    | .none => noJitter c s
    | .full => fullJitter c s draw
    | .default => fullJitter c s draw) c.maxDelay

/-- `s_update_reconnect_delay_for_pending_reconnect` (1343-1372), entered on every transition to
PENDING_RECONNECT. -/
def update (c : Config) (s : State) (draw : Option Nat) (now : Nat) : State :=
  { s with
    nextAt := addSat now (convert (delay c s draw) 1000 1000000000)
    count := (s.count + 1) % 18446744073709551616 }

/-- `s_reset_reconnection_delay_time` (1264-1278), called on entering CONNECTED (1290). -/
def onConnected (c : Config) (s : State) (now : Nat) : State :=
  { s with resetAt := addSat now (convert c.resetAfter 1000 1000000000) }

/-- The reset in `s_service_state_connected` (1526-1536). -/
def onService (s : State) (now : Nat) : State :=
  if now ≥ s.resetAt ∧ s.resetAt ≠ 0 then { s with count := 0, current := 0, resetAt := 0 } else s

/-- The assignment in `aws_mqtt5_client_reset_connection` (3760), called by the 3.1.1 adapter. -/
def resetConnection (c : Config) (s : State) : State := { s with current := c.minDelay }

/-! ### MQTT 3.1.1 -/

/-- `connection->reconnect_timeouts` (seconds, and a timestamp in nanoseconds), as set by
`aws_mqtt_client_connection_new` (3720-3722). -/
structure State311 where
  minSec : Nat := 1
  maxSec : Nat := 128
  currentSec : Nat := 1
  connackAt : Nat := 0
deriving DecidableEq, Repr

/-- `s_aws_mqtt_client_connection_311_set_reconnect_timeout` (1149-1151). -/
def setTimeout (s : State311) (lo hi : Nat) : State311 :=
  { s with minSec := lo, maxSec := hi, currentSec := lo }

/-- Accepted CONNACK (client_channel_handler.c:198). -/
def onConnack (s : State311) (now : Nat) : State311 := { s with connackAt := now }

/-- The back-off part of `s_mqtt_client_shutdown` (278-296). `now - timestamp` wraps. -/
def onShutdown (s : State311) (userDisconnect : Bool) (now : Nat) : State311 :=
  let diff := (now + 18446744073709551616 - s.connackAt) % 18446744073709551616
  let long := s.connackAt ≠ 0 ∧ diff ≥ convert 10 1 1000000000
  let s := if userDisconnect ∨ long then { s with currentSec := s.minSec } else s
  { s with connackAt := 0 }

/-- `s_aws_mqtt_schedule_reconnect_task` (73-86): the time of the next attempt; the addition wraps. -/
def nextAttempt (s : State311) (now : Nat) : Nat :=
  (now + convert s.currentSec 1 1000000000) % 18446744073709551616

/-- The doubling in `s_attempt_reconnect` (778-783). -/
def onAttempt (s : State311) : State311 :=
  if s.currentSec > s.maxSec / 2 then { s with currentSec := s.maxSec }
  else { s with currentSec := s.currentSec * 2 }

end Mqtt.Reconnect
