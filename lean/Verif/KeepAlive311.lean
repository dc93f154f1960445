import Verif.Basic

/-!
Time on one channel of an MQTT 3.1.1 connection: the CONNACK timeout, pings and their timeout
(/repo/source/client.c:478-497, 594-608, 1750-1786, 3399-3474; client_channel_handler.c ("ch"), line numbers below).

A channel begins when `s_mqtt_client_init` sends CONNECT, and ends when `aws_channel_shutdown` is called: the tasks of a
channel that shuts down are cancelled. Requests and what they do apart from time are in `Client311.lean`; here a request
is outstanding from `mqtt_create_request` until it is complete.

Simplifications: times are natural numbers of nanoseconds on the clock of the event loop, and sums do not wrap (a clock
below 2^63 and the largest options are far from 2^64). Memory can be allocated, and a packet that is sent is handed to
the channel. The event loop is prompt: the clock does not move while a task is due. No acknowledgement comes for a
request whose outgoing task is scheduled (see C53). PUBACK, PUBREC, PUBREL and PUBCOMP packets sent in reply are
left out; they do not influence pings.
-/
namespace Mqtt.KeepAlive311

/-- `keep_alive_time_ns` and `ping_timeout_ns`. -/
structure Config where
  keepAlive : Nat
  pingTimeout : Nat
deriving DecidableEq, Repr

/-- The part of `aws_mqtt_client_connection_311_connect` about times (client.c:1750-1786); `none` is the fatal assertion. -/
def configure (keepAliveSecs pingTimeoutMs : Nat) : Option Config :=
  let secs := if keepAliveSecs = 0 then 1200 else keepAliveSecs                               -- 38, 1753-1755
  let keepAlive := secs * 1000000000                                                          -- 1756-1757
  let pingTimeout := if pingTimeoutMs = 0 then 3000000000 else pingTimeoutMs * 1000000        -- 35, 1769-1774
  if keepAlive ≤ pingTimeout then none                                                        -- 1777-1786
  else some { keepAlive, pingTimeout }

/-- States of the connection while it has the channel: CONNECTING or RECONNECTING, CONNECTED, DISCONNECTING; `closed` is
after `aws_channel_shutdown`. -/
inductive Phase where
  | connecting
  | connected
  | disconnecting
  | closed
deriving DecidableEq, Repr

/-- Why a channel was closed. -/
inductive Reason where
  | connackTimeout
  | pingTimeout
  | other
deriving DecidableEq, Repr

/-- What happens, with the time. -/
inductive Entry where
  /-- CONNECT has been sent. -/
  | connect (t : Nat)
  /-- A CONNACK has accepted the connection. -/
  | accepted (t : Nat)
  /-- A request other than a ping has been sent. -/
  | sent (t : Nat)
  /-- PINGREQ has been sent. -/
  | ping (t : Nat)
  | pingresp (t : Nat)
  /-- No PINGREQ is sent, since there is no packet id for it. -/
  | skipped (t : Nat)
  | shut (t : Nat) (why : Reason)
deriving DecidableEq, Repr

/-- A request other than a ping: is it to be acknowledged (all but PUBLISH with QoS 0), and when was it sent last? The
time is 0 before that (ch 956). -/
structure Request where
  uid : Nat
  acked : Bool
  stamp : Nat := 0
deriving DecidableEq, Repr

structure Chan where
  phase : Phase := .connecting
  now : Nat
  /-- `next_ping_time`. -/
  next : Nat
  /-- When the CONNACK timeout task is to run. -/
  connackAt : Option Nat
  /-- When `ping_task` is to run. -/
  pingAt : Option Nat := none
  /-- `waiting_on_ping_response`. -/
  waiting : Bool
  /-- When PINGRESP timeout tasks are to run. -/
  timers : List Nat := []
  /-- Outstanding requests. -/
  reqs : List Request
  /-- Requests whose outgoing task is scheduled; pings are `none`. -/
  tasks : List (Option Nat) := []
  nextUid : Nat
  log : List Entry
deriving DecidableEq, Repr

/-- Scheduling a task that is scheduled. -/
inductive Fault where
  | scheduledTwice
deriving DecidableEq, Repr

/-- The channel when CONNECT is sent (client.c:594-608, 700-708). `next`, `waiting` and `reqs` are left from earlier channels;
requests wait in `pending_requests_list`. -/
def Chan.open (cfg : Config) (now next : Nat) (waiting : Bool) (reqs : List Request) (nextUid : Nat) : Chan :=
  { now, next, waiting, reqs, nextUid
    connackAt := some (now + cfg.pingTimeout)
    log := [.connect now] }

/-- `aws_channel_shutdown`. -/
def Chan.shut (c : Chan) (why : Reason) : Chan :=
  { c with phase := .closed, connackAt := none, pingAt := none, timers := [], tasks := [], log := c.log ++ [.shut c.now why] }

/-- `s_packet_handler_connack` (ch 146-274); `aws_channel_task_init` (ch 71) is applied to the ping task even if that is
scheduled. -/
def Chan.connack (cfg : Config) (c : Chan) (accepted : Bool) : Except Fault Chan :=
  if c.phase = .disconnecting then .ok c                                           -- 167-172
  else if !accepted then .ok (c.shut .other)                                       -- 221-230
  else if c.pingAt.isSome then .error .scheduledTwice                              -- 70-86
  else
    .ok { c with
      phase := .connected
      tasks := if c.phase = .connecting then c.tasks ++ c.reqs.map fun r => some r.uid else c.tasks   -- 184, 204-219
      next := c.now + cfg.keepAlive                                                -- 28-33, 271
      pingAt := some (c.now + cfg.keepAlive)                                       -- 85
      log := c.log ++ [.accepted c.now] }

/-- Are all packet ids taken? A ping has one until it is sent. -/
def Chan.full (c : Chan) : Bool := c.reqs.length + (c.tasks.filter (·.isNone)).length ≥ 65535

/-- `mqtt_create_request` (ch 873-1012) for a request of the user. It is refused while disconnecting, without a packet id, or
if it is a PUBLISH with QoS 0 and the connection is not established. -/
def Chan.submit (c : Chan) (acked : Bool) : Chan :=
  if c.phase = .disconnecting ∨ c.phase = .closed ∨ (!acked ∧ c.phase ≠ .connected) ∨ c.full then c
  else
    { c with
      reqs := c.reqs ++ [{ uid := c.nextUid, acked }]
      tasks := if c.phase = .connected then c.tasks ++ [some c.nextUid] else c.tasks
      nextUid := c.nextUid + 1 }

/-- `s_on_time_to_ping` (ch 88-113), with `mqtt_create_request` for a ping. -/
def Chan.pingTask (cfg : Config) (c : Chan) : Chan :=
  if c.now ≥ c.next then                                                           -- 96
    let next := c.now + cfg.keepAlive                                              -- 97
    let c := { c with next, pingAt := some next }                                  -- 111
    if c.phase ≠ .connected then c
    else if c.full then { c with log := c.log ++ [.skipped c.now] }
    else { c with tasks := c.tasks ++ [none] }
  else { c with pingAt := some c.next }

/-- `s_request_outgoing_task` (ch 748-871) for a request of the user that is sent. -/
def Chan.send (c : Chan) (uid : Nat) : Chan :=
  match c.reqs.find? (·.uid = uid) with
  | none => c
  | some r =>
    { c with
      tasks := c.tasks.erase (some uid)
      reqs := if r.acked then c.reqs.map fun x => if x.uid = uid then { x with stamp := c.now } else x   -- 808
        else c.reqs.filter (·.uid ≠ uid)
      log := c.log ++ [.sent c.now] }

/-- The same if it cannot be sent. -/
def Chan.fail (c : Chan) (uid : Nat) : Chan :=
  { c with tasks := c.tasks.erase (some uid), reqs := c.reqs.filter (·.uid ≠ uid) }

/-- `s_pingreq_send` (client.c:3416-3462). -/
def Chan.sendPing (cfg : Config) (c : Chan) : Chan :=
  { c with
    tasks := c.tasks.erase none
    waiting := true
    timers := c.timers ++ [c.now + cfg.pingTimeout]
    log := c.log ++ [.ping c.now] }

/-- `s_pingresp_received_timeout` (client.c:3399-3414). -/
def Chan.pingTimer (c : Chan) (t : Nat) : Chan :=
  let c := { c with timers := c.timers.erase t }
  if c.waiting then ({ c with waiting := false }).shut .pingTimeout else c

/-- `s_connack_received_timeout` (client.c:478-497). -/
def Chan.connackTimer (c : Chan) : Chan :=
  let c := { c with connackAt := none }
  if c.phase = .connecting then c.shut .connackTimeout else c

/-- `mqtt_request_complete` (ch 1014-1071) with success: `s_pushoff_next_ping_time` (ch 46-55). -/
def Chan.ack (cfg : Config) (c : Chan) (uid : Nat) : Chan :=
  match c.reqs.find? (·.uid = uid) with
  | none => c
  | some r =>
    { c with
      next := if r.stamp + cfg.keepAlive > c.next then r.stamp + cfg.keepAlive else c.next
      reqs := c.reqs.filter (·.uid ≠ uid) }

inductive Event where
  /-- Time passes. -/
  | tick (d : Nat)
  | connack (accepted : Bool)
  | pingresp
  | submit (acked : Bool)
  /-- The outgoing task of a request runs. -/
  | send (uid : Nat)
  | fail (uid : Nat)
  | sendPing
  | pingTask
  | pingTimer (t : Nat)
  | connackTimer
  /-- An acknowledgement. -/
  | ack (uid : Nat)
  /-- A request times out. -/
  | drop (uid : Nat)
  /-- `aws_mqtt_client_connection_disconnect`. -/
  | disconnect
  /-- The channel is shut down for another reason. -/
  | shut
deriving DecidableEq, Repr

/-- When events can happen. -/
def Enabled (c : Chan) : Event → Prop
  | .tick d => 0 < d ∧ c.tasks = [] ∧ (∀ t, c.connackAt = some t → c.now + d ≤ t) ∧ (∀ t, c.pingAt = some t → c.now + d ≤ t) ∧
      ∀ t ∈ c.timers, c.now + d ≤ t
  | .connack _ => c.phase ≠ .closed
  | .pingresp => c.phase ≠ .closed
  | .submit _ => True
  | .send uid => some uid ∈ c.tasks
  | .fail uid => some uid ∈ c.tasks
  | .sendPing => none ∈ c.tasks
  | .pingTask => ∃ t, c.pingAt = some t ∧ t ≤ c.now
  | .pingTimer t => t ∈ c.timers ∧ t ≤ c.now
  | .connackTimer => ∃ t, c.connackAt = some t ∧ t ≤ c.now
  | .ack uid => c.phase ≠ .closed ∧ some uid ∉ c.tasks
  | .drop uid => some uid ∉ c.tasks
  | .disconnect => True
  | .shut => c.phase ≠ .closed

def step (cfg : Config) (c : Chan) : Event → Except Fault Chan
  | .tick d => .ok { c with now := c.now + d }
  | .connack accepted => c.connack cfg accepted
  | .pingresp => .ok { c with waiting := false, log := c.log ++ [.pingresp c.now] }      -- ch 561-571
  | .submit acked => .ok (c.submit acked)
  | .send uid => .ok (c.send uid)
  | .fail uid => .ok (c.fail uid)
  | .sendPing => .ok (c.sendPing cfg)
  | .pingTask => .ok (c.pingTask cfg)
  | .pingTimer t => .ok (c.pingTimer t)
  | .connackTimer => .ok c.connackTimer
  | .ack uid => .ok (c.ack cfg uid)
  | .drop uid => .ok { c with reqs := c.reqs.filter (·.uid ≠ uid) }
  | .disconnect => .ok (if c.phase = .closed then c else { c with phase := .disconnecting })
  | .shut => .ok (c.shut .other)

/-- The states a channel of a connection can be in, whatever happened on earlier channels. -/
inductive Reachable (cfg : Config) : Chan → Prop where
  | opened (now next : Nat) (waiting : Bool) (reqs : List Request) (nextUid : Nat) :
      reqs.length ≤ 65535 → (reqs.map (·.uid)).Nodup → (∀ r ∈ reqs, r.uid < nextUid ∧ r.stamp ≤ now) →
      Reachable cfg (Chan.open cfg now next waiting reqs nextUid)
  | step {c c' : Chan} {e : Event} : Reachable cfg c → Enabled c e → step cfg c e = .ok c' → Reachable cfg c'

end Mqtt.KeepAlive311
