import Verif.Options5

/-!
The options of the adapter that makes an MQTT 3.1.1 connection of an MQTT 5 client
(/repo/source/v5/mqtt5_to_mqtt3_adapter.c, line numbers below, and mqtt5_client.c, where said), and the sockets and CONNECTs
the client then uses.

Every setter and `connect()` checks its arguments, copies them and schedules a task; tasks run in order on the event loop of the
client, where everything else here happens too. Memory can be allocated, and TLS options can be copied; they are known by a
number. Websockets, proxies and host resolution are not modelled. One adapter is attached to the client. When the client and the
adapter change their states is in `Verif/Client5.lean` and `Verif/Adapter.lean`; here they may change whenever the code that
changes them could run.
-/
namespace Mqtt.AdapterOptions
open Mqtt Mqtt.V5

/-- The part of `struct aws_mqtt_connection_options` that is modelled; the socket options are a pointer. -/
structure Options where
  host : Bytes
  port : Nat
  socket : Option Options5.Socket
  tls : Option Nat := none
  clientId : Bytes
  cleanSession : Bool
  keepAlive : Nat
  pingTimeoutMs : Nat := 0
  operationTimeoutMs : Nat := 0
deriving DecidableEq, Repr

structure Will where
  topic : Bytes
  qos : Nat
  retain : Bool
  payload : Bytes
deriving DecidableEq, Repr

/-- The calls. A user name or password that is not given is `none`. -/
inductive Call where
  | connect (o : Options)
  | will (w : Will)
  | login (username password : Option Bytes)
  | metrics (m : Option Metrics.Metrics)
  | reconnect (lo hi : Nat)
deriving DecidableEq, Repr

/-- What a socket is opened with. -/
structure Dest where
  host : Bytes
  port : Nat
  socket : Option Options5.Socket
  tls : Option Nat
deriving DecidableEq, Repr

/-- `struct aws_mqtt5_client_options_storage`, in part. -/
structure Config where
  dest : Dest
  connect : ConnectView
  session : SessionBehavior
  inboundAliases : Option Nat := none
  pingTimeoutMs : Nat
  ackTimeoutSeconds : Nat
  minDelayMs : Nat
  maxDelayMs : Nat
  metrics : Option Metrics.Metrics
deriving DecidableEq, Repr

/-- `enum aws_mqtt5_client_state`; `closing` is CLEAN_DISCONNECT or CHANNEL_SHUTDOWN. -/
inductive Phase where
  | stopped
  | connecting
  | mqttConnect
  | connected
  | closing
  | pendingReconnect
deriving DecidableEq, Repr

/-- The adapter and its client. -/
structure Conn where
  config : Config
  /-- `negotiated_settings.client_id_storage`. -/
  clientId : Bytes
  hasConnected : Bool := false
  delayMs : Nat
  phase : Phase := .stopped
  /-- `should_reset_connection`. -/
  reset : Bool := false
  /-- The adapter is in state STAY_DISCONNECTED. -/
  idle : Bool := true
  queue : List Call := []
deriving DecidableEq, Repr

/-- What can be seen. -/
inductive Entry where
  /-- A call returned success. -/
  | called (x : Call)
  /-- A call returned an error. -/
  | refused (x : Call)
  /-- The first call that waits has had its effect. -/
  | took
  /-- The first call that waits is a `connect()`, and its callback was told that the connection is in use. -/
  | already
  | dialed (d : Dest)
  /-- CONNECT is sent. -/
  | sent (v : ConnectView)
  /-- No CONNECT could be made; the attempt fails. -/
  | unsent
  /-- A CONNACK was accepted, and the server chose a client id. -/
  | assigned (id : Bytes)
  /-- The process crashed. -/
  | crash
deriving DecidableEq, Repr

/-- The checks of `connect()` (285-314), `set_will` (1553-1565), `set_login` (1678-1700), `set_metrics` (2850-2853) and
`set_reconnect_timeout` (1157-1178). -/
def Call.ok : Call → Bool
  | .connect o => o.host.length ≠ 0 && !o.socket.any (fun s => s.datagram || s.connectTimeoutMs = 0)
  | .will w => w.qos ≤ 2 && isValidTopic w.topic
  | .login _ _ => true
  | .metrics m => m.all Metrics.validMetrics
  | .reconnect _ _ => true

/-- A call. `connect()` reads the socket options it was given (246). -/
def Conn.call (c : Conn) (x : Call) : Conn × List Entry :=
  if !x.ok then (c, [.refused x])
  else match x with
    | .connect o =>
      if o.socket.isNone then (c, [.crash]) else ({ c with queue := c.queue ++ [x] }, [.called x])
    | _ => ({ c with queue := c.queue ++ [x] }, [.called x])

/-- The timeout of an operation in seconds, computed with 32 bits (612-616). -/
def ackSeconds (ms : Nat) : Nat := (ms + 1000 - 1) % 4294967296 / 1000

/-- `s_aws_mqtt5_to_mqtt3_adapter_update_config_on_connect` (582-628), but for the client id. -/
def Config.onConnect (g : Config) (o : Options) : Config :=
  { g with
    dest := ⟨o.host, o.port, o.socket, o.tls⟩                                        -- 587-601
    connect := { g.connect with
      keepAlive := o.keepAlive                                                       -- 608
      sessionExpiry := if o.cleanSession then none else some 604800 }                -- 618-627
    pingTimeoutMs := o.pingTimeoutMs                                                 -- 609
    ackTimeoutSeconds := ackSeconds o.operationTimeoutMs                             -- 612-616
    session := if o.cleanSession then .clean else .rejoinAlways }                    -- 619, 622

/-- The will as MQTT 5 has it (1495-1500). -/
def Will.publish (w : Will) : PublishView := { topic := w.topic, qos := w.qos, retain := w.retain, payload := w.payload }

/-- `s_set_will_task_fn` (1476-1514). -/
def Config.setWill (g : Config) (w : Will) : Config := { g with connect := { g.connect with will := some w.publish } }

/-- A user name or password of no bytes is none (1620-1630). -/
def given (s : Option Bytes) : Option Bytes := if (s.getD []).length > 0 then s else none

/-- `s_set_login_task_fn` (1599-1653); none if it crashes. The new CONNECT options are stored with the metrics of the client
(1642), as a CONNECT would be. -/
def Config.setLogin (platform : Bytes) (g : Config) (username password : Option Bytes) : Option Config :=
  match Metrics.connect platform g.metrics { g.connect with username := given username, password := given password } with
  | .ok v => some { g with connect := v }
  | .refused => some g                                                               -- 1632-1638
  | .crash => none

/-- `aws_mqtt5_client_reset_connection` (mqtt5_client.c:3757-3777). -/
def Conn.resetConnection (c : Conn) : Conn :=
  let c := { c with delayMs := c.config.minDelayMs }
  match c.phase with
  | .mqttConnect | .connected => { c with phase := .closing }
  | .connecting => { c with reset := true }
  | _ => c

/-- The next task. `connect()`: 630-676; the others: 1117-1139, 1476-1514, 1599-1653, 2801-2823. -/
def Conn.run (platform : Bytes) (c : Conn) : Conn × List Entry :=
  match c.queue with
  | [] => (c, [])
  | x :: rest =>
    let c := { c with queue := rest }
    match x with
    | .connect o =>
      if !c.idle then (c, [.already])                                                -- 640-651
      else (({ c with idle := false, config := c.config.onConnect o, clientId := o.clientId } : Conn).resetConnection, [.took])
    | .will w => ({ c with config := c.config.setWill w }, [.took])
    | .login u p => match c.config.setLogin platform u p with
      | some g => ({ c with config := g }, [.took])
      | none => (c, [.took, .crash])
    | .metrics m => ({ c with config := { c.config with metrics := m } }, [.took])
    | .reconnect lo hi =>
      ({ c with config := { c.config with minDelayMs := min lo hi, maxDelayMs := max lo hi }, delayMs := min lo hi }, [.took])

/-- `s_change_current_state_to_connecting` (mqtt5_client.c:1038-1088); `ok` tells whether a socket can be opened. -/
def Conn.dial (c : Conn) (ok : Bool) : Conn × List Entry :=
  ({ c with reset := false, phase := if ok then .connecting else .pendingReconnect }, [.dialed c.config.dest])

/-- `s_mqtt5_client_setup` with a channel, then `s_change_current_state_to_mqtt_connect` (mqtt5_client.c:1205-1262). -/
def Conn.setup (platform : Bytes) (c : Conn) : Conn × List Entry :=
  if c.reset then ({ c with phase := .closing }, [])                                 -- 1209-1212
  else
    let v := (connectView c.config.connect c.config.session c.hasConnected c.config.inboundAliases { clientId := c.clientId }).2
    match Metrics.connect platform c.config.metrics v with
    | .ok v => ({ c with phase := .mqttConnect }, [.sent v])
    | .refused => ({ c with phase := .closing }, [.unsent])                          -- 1233-1244
    | .crash => (c, [.crash])

/-- Steps. -/
inductive Event where
  | call (x : Call)
  /-- The next task of the adapter. -/
  | run
  | dial (ok : Bool)
  /-- A channel is there. -/
  | setup
  /-- A CONNACK that accepts the connection, and the client id assigned by it (mqtt5_utils.c:204-264). -/
  | connack (assigned : Option Bytes)
  /-- The client leaves CONNECTING without a channel, or its channel is to be shut down; `stop` if it is to stop. -/
  | drop
  | closed (stop : Bool)
  /-- The state of the adapter changes with the events of the client, and with `disconnect()` (343-557). -/
  | adapter (idle : Bool)
deriving Repr

def Enabled (c : Conn) : Event → Prop
  | .dial _ => c.phase = .stopped ∨ c.phase = .pendingReconnect
  | .setup => c.phase = .connecting
  | .connack _ => c.phase = .mqttConnect
  | .drop => c.phase = .mqttConnect ∨ c.phase = .connected
  | .closed _ => c.phase = .closing ∨ c.phase = .connecting ∨ c.phase = .pendingReconnect
  | _ => True

instance (c : Conn) (e : Event) : Decidable (Enabled c e) := by
  cases e <;> simp only [Enabled] <;> infer_instance

def step (platform : Bytes) (c : Conn) : Event → Conn × List Entry
  | .call x => c.call x
  | .run => c.run platform
  | .dial ok => c.dial ok
  | .setup => c.setup platform
  | .connack none => ({ c with phase := .connected, hasConnected := true }, [])
  | .connack (some id) =>
    ({ c with phase := .connected, hasConnected := true, clientId := if c.clientId.length = 0 then id else c.clientId },
      [.assigned id])                                                                -- mqtt5_utils.c:144-154
  | .drop => ({ c with phase := .closing }, [])
  | .closed stop => if stop then ({ c with phase := .stopped, hasConnected := false }, []) else ({ c with phase := .pendingReconnect }, [])
  | .adapter idle => ({ c with idle }, [])

/-- What can come about with a client with the configuration `g` and the client id `id`, and what has been seen since. -/
inductive Reachable (platform : Bytes) (g : Config) (id : Bytes) : Conn → List Entry → Prop
  | init (delay : Nat) : Reachable platform g id { config := g, clientId := id, delayMs := delay } []
  | step {c : Conn} {log : List Entry} (h : Reachable platform g id c log) (e : Event) (he : Enabled c e)
      (hc : Entry.crash ∉ log) : Reachable platform g id (step platform c e).1 (log ++ (step platform c e).2)

end Mqtt.AdapterOptions
