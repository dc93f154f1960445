import Verif.KeepAlive311
import Verif.Metrics
import Verif.Packets311
import Verif.Send311
import Verif.Text

/-!
The configuration of an MQTT 3.1.1 connection and the CONNECT it sends (/repo/source/client.c, line numbers below).

`s_mqtt_client_init` and `s_mqtt_client_connect` read the configuration without the lock; they are single steps here, and C82
proves that no step changes the configuration while a connection is being made. Memory can be allocated, and TLS options can be
copied. Websockets and proxies are not modelled. When states change is in `Verif/Client311.lean`; here they may change
whenever the code that changes them could run.
-/
namespace Mqtt.Options311
open Mqtt

/-- `enum aws_mqtt_client_connection_state`. -/
inductive State where
  | disconnected
  | connecting
  | connected
  | reconnecting
  | disconnecting
deriving DecidableEq, Repr

/-- The part of `struct aws_mqtt_connection_options` that is modelled; TLS options are known by a number. -/
structure Options where
  host : Bytes
  port : Nat
  tls : Option Nat := none
  clientId : Bytes
  cleanSession : Bool
  keepAlive : UInt16
  pingTimeoutMs : Nat := 0
deriving DecidableEq, Repr

structure Will where
  topic : Bytes
  qos : Nat
  retain : Bool
  payload : Bytes
deriving DecidableEq, Repr

/-- `struct aws_mqtt_client_connection_311_impl`, in part. `tls` is `none` for options that are all zero. -/
structure Conn where
  state : State := .disconnected
  host : Bytes := []
  port : Nat := 0
  useTls : Bool := false
  tls : Option Nat := none
  cleanSession : Bool := false
  keepAlive : UInt16 := 0
  clientId : Bytes := []
  username : Option Bytes := none
  password : Option Bytes := none
  will : Option Will := none
  metrics : Option Metrics.Metrics := none
deriving DecidableEq, Repr

/-- The TLS options a socket is opened with. -/
inductive Dial where
  /-- No TLS. -/
  | plain
  | tls (id : Nat)
  /-- TLS with options that are all zero. -/
  | zeroed
deriving DecidableEq, Repr

/-- What can be seen. -/
inductive Entry where
  | will (w : Will) (ok : Bool)
  | login (username : Bytes) (password : Option Bytes) (ok : Bool)
  | metrics (m : Option Metrics.Metrics) (ok : Bool)
  /-- `connect()` began to connect, though it may fail to open a socket at once. -/
  | accepted (o : Options)
  | refused (o : Options)
  | dialed (host : Bytes) (port : Nat) (tls : Dial)
  /-- CONNECT was written. -/
  | sent (bytes : Bytes)
  /-- CONNECT could not be written; the attempt fails. -/
  | unsent
  /-- The process ended (1786). -/
  | abort
deriving DecidableEq, Repr

/-- `s_is_valid_connection_state_for_configuration` (67-71). -/
def State.configurable (s : State) : Bool := s = .disconnected || s = .connected

/-- `s_aws_mqtt_client_connection_311_set_will` (954-1039). -/
def Conn.setWill (c : Conn) (w : Will) : Conn × List Entry :=
  if !isValidTopic w.topic then (c, [.will w false])                                -- 966-969
  else if w.qos > 2 then (c, [.will w false])                                       -- 971-974
  else if !c.state.configurable then (c, [.will w false])                           -- 1003-1009
  else ({ c with will := some w }, [.will w true])                                  -- 1011-1028

/-- `s_aws_mqtt_client_connection_311_set_login` (1041-1116). -/
def Conn.setLogin (c : Conn) (username : Bytes) (password : Option Bytes) : Conn × List Entry :=
  if !validUtf8Text username then (c, [.login username password false])             -- 1051-1055
  else if !c.state.configurable then (c, [.login username password false])          -- 1080-1086
  else ({ c with username := some username, password }, [.login username password true])   -- 1096-1105

/-- `s_aws_mqtt_client_connection_311_set_metrics` (3583-3636). -/
def Conn.setMetrics (c : Conn) (m : Option Metrics.Metrics) : Conn × List Entry :=
  if m.any (fun m => !Metrics.validMetrics m) then (c, [.metrics m false])          -- 3590-3593
  else if !c.state.configurable then (c, [.metrics m false])                        -- 3612-3620
  else ({ c with metrics := m }, [.metrics m true])                                 -- 3623-3624

/-- The socket `s_mqtt_client_connect` (1913-1960) opens. -/
def Conn.dial (c : Conn) : Entry :=
  .dialed c.host c.port (if c.useTls then match c.tls with | some t => .tls t | none => .zeroed else .plain)   -- 1927-1930

/-- `s_aws_mqtt_client_connection_311_connect` (1701-1911); `begun` tells whether `s_mqtt_client_connect` succeeds. -/
def Conn.connect (c : Conn) (o : Options) (begun : Bool) : Conn × List Entry :=
  if !validUtf8Text o.clientId then (c, [.refused o])                               -- 1711-1715
  else if c.state ≠ .disconnected then (c, [.refused o])                            -- 1731-1734
  else
    let c := { c with state := .connecting, host := o.host, port := o.port, cleanSession := o.cleanSession }   -- 1735-1749
    let c := { c with keepAlive := if o.keepAlive = 0 then 1200 else o.keepAlive }                             -- 1750-1755
    match KeepAlive311.configure o.keepAlive.toNat o.pingTimeoutMs with
    | none => (c, [.accepted o, .abort])                                                                       -- 1777-1786
    | some _ =>
      let c := match o.tls with
        | some t => { c with useTls := true, tls := some t }                                                   -- 1795-1803
        | none => { c with tls := none }                                                                       -- 1815-1817
      let c := { c with clientId := o.clientId }                                                               -- 1819-1831
      if begun then (c, [.accepted o, c.dial])                                                                 -- 1885, 1900
      else ({ c with state := .disconnected, tls := none }, [.accepted o, c.dial])                             -- 1902-1910

/-- The packet that `s_mqtt_client_init` makes (617-680). -/
def Conn.packet (platform : Bytes) (c : Conn) : ConnectPacket :=
  let p := connectInit c.clientId c.cleanSession c.keepAlive                                     -- 618-620
  let p := match c.will with                                                                     -- 622-636
    | none => p
    | some w => connectAddWill p w.topic w.qos w.retain w.payload
  let user := c.username.getD []                                                                 -- 638-642
  if user.length > 0 ∨ c.metrics.isSome then                                                     -- 644
    let user := match c.metrics with                                                             -- 647-661
      | none => user
      | some m => match Metrics.append platform user (some m) true with
        | .ok u => u
        | _ => user
    if user.length > 0 then connectAddCredentials p user (c.password.getD [])                    -- 663-678
    else p
  else p

/-- `s_mqtt_client_init` with a channel (503-720). -/
def Conn.setup (platform : Bytes) (c : Conn) : Conn × List Entry :=
  if c.state = .disconnecting then (c, [])                                                       -- 532-538
  else
    let p := c.packet platform
    match connectEncode (messageFor p.header) p with                                             -- 689, 696
    | .ok b => (c, [.sent b.data])                                                               -- 702
    | .error _ => (c, [.unsent])                                                                 -- 711-714

/-- Steps. -/
inductive Event where
  | setWill (w : Will)
  | setLogin (username : Bytes) (password : Option Bytes)
  | setMetrics (m : Option Metrics.Metrics)
  | connect (o : Options) (begun : Bool)
  /-- A channel is there. -/
  | setup
  /-- CONNACK was accepted (client_channel_handler.c:180-220). -/
  | connack
  /-- `disconnect()`, or the last reference is released. -/
  | disconnect
  /-- The channel was shut down, or an attempt failed (249-474). -/
  | shutdown
  /-- `s_attempt_reconnect` (722-804). -/
  | reconnect
deriving Repr

/-- A channel is set up after a socket was opened, which is in state CONNECTING or RECONNECTING; then `disconnect()` may have
been called. A CONNACK is accepted in these states. -/
def Enabled (c : Conn) : Event → Prop
  | .setup => c.state = .connecting ∨ c.state = .reconnecting ∨ c.state = .disconnecting
  | .connack => c.state = .connecting ∨ c.state = .reconnecting
  | .shutdown => c.state ≠ .disconnected
  | .reconnect => c.state = .reconnecting ∨ c.state = .disconnecting
  | _ => True

def step (platform : Bytes) (c : Conn) : Event → Conn × List Entry
  | .setWill w => c.setWill w
  | .setLogin u p => c.setLogin u p
  | .setMetrics m => c.setMetrics m
  | .connect o begun => c.connect o begun
  | .setup => c.setup platform
  | .connack => ({ c with state := .connected }, [])
  | .disconnect =>
    if c.state = .connected ∨ c.state = .reconnecting then ({ c with state := .disconnecting }, []) else (c, [])
  | .shutdown => match c.state with
    | .connected => ({ c with state := .reconnecting }, [])                         -- 323-330
    | .reconnecting => (c, [])                                                      -- 345-347
    | _ => ({ c with state := .disconnected }, [])                                  -- 331-344
  | .reconnect =>
    if c.state = .disconnecting then ({ c with state := .disconnected }, [])        -- 738-771
    else (c, [c.dial])                                                              -- 795

/-- The connections that can come about, each with what has been seen. -/
inductive Reachable (platform : Bytes) : Conn → List Entry → Prop
  | init : Reachable platform {} []
  | step {c : Conn} {log : List Entry} (h : Reachable platform c log) (e : Event) (he : Enabled c e)
      (ha : Entry.abort ∉ log) : Reachable platform (step platform c e).1 (log ++ (step platform c e).2)

end Mqtt.Options311
