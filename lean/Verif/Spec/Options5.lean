import Verif.Options5
import Verif.Props.C56

/-!
What the options of the MQTT 5 client mean (mqtt5_client.h:25-158, 540-719).
-/
namespace Mqtt.Options5

open Mqtt.Spec Mqtt.V5 Mqtt.Props

/-- The options a client can be made from. `portOk` says which ports can be connected to. -/
structure Acceptable (portOk : Nat → Nat → Bool) (o : Options) : Prop where
  host : o.hostName ≠ []
  bootstrap : o.bootstrap = true
  socket : ∀ s, o.socket = some s → s.datagram = false ∧ 0 < s.connectTimeoutMs
  port : portOk o.port ((o.socket.map Socket.domain).getD 0) = true
  proxy : ∀ h p, o.proxy = some (h, p) → h ≠ [] ∧ portOk p 0 = true
  lifecycle : o.lifecycleHandler = true
  publish : o.publishHandler = true
  connect : ∃ v, o.connect = some v ∧ ConnectRules v ∧ Opt v.will PublishLimits ∧
    Opt v.will (fun w => w.qos = 0 → w.packetId = 0) ∧ v.userProperties.length ≤ 1024
  aliases : ∀ a, o.aliasing = some a → a.outbound ≤ 3 ∧ a.inbound ≤ 2
  metrics : ∀ m, o.metrics = some m → Text m.libraryName ∧ ∀ e ∈ m.entries, Text e.key ∧ Text e.value

/-- A number, or its default. -/
def orElse (n default : Nat) : Nat := if n = 0 then default else n

/-- The documented defaults. -/
structure Documented (o : Options) (s : Storage) : Prop where
  minDelay : s.retry.minDelay = orElse o.retry.minDelay 1000
  maxDelay : s.retry.maxDelay = orElse o.retry.maxDelay 120000
  resetAfter : s.retry.resetAfter = orElse o.retry.resetAfter 30000
  jitter : s.retry.jitter = o.retry.jitter
  ping : s.client.pingTimeoutMs = orElse o.pingTimeoutMs 30000
  connack : s.client.connackTimeoutMs = orElse o.connackTimeoutMs 20000
  ack : s.client.ackTimeoutSeconds = orElse o.ackTimeoutSeconds 60
  clean : (o.session = .default ∨ o.session = .clean) ↔ s.client.session = .clean
  post : o.session = .rejoinPostSuccess ↔ s.client.session = .rejoinPostSuccess
  always : o.session = .rejoinAlways ↔ s.client.session = .rejoinAlways
  failQos0 : (o.offline = .default ∨ o.offline = .failQos0) ↔ s.client.offline = .failQos0
  failNonQos1 : o.offline = .failNonQos1 ↔ s.client.offline = .failNonQos1
  failAll : o.offline = .failAll ↔ s.client.offline = .failAll
  extended : s.client.extended = o.extended

/-- Is inbound aliasing enabled (`AWS_MQTT5_CITABT_ENABLED`), and with how many aliases? -/
def inboundAliasing (o : Options) : Option Nat :=
  match o.aliasing with
  | some a => if a.inbound = 1 then some (orElse a.inboundSize 25) else none
  | none => none

/-- Does a client ask for its session? `joined`: it has connected since it was stopped. -/
def resumes (o : Options) (joined : Bool) : Bool :=
  match o.session with
  | .rejoinAlways => true
  | .rejoinPostSuccess => joined
  | _ => false

/-- The CONNECT options `asked` of a user in a CONNECT; an empty user name counts as none. The
numbers are the characters of `gen`. -/
structure Meant (uuid : Bytes) (o : Options) (asked v : ConnectView) : Prop where
  same : v = { asked with
    cleanStart := v.cleanStart
    clientId := v.clientId
    topicAliasMaximum := match inboundAliasing o with | some n => some n | none => asked.topicAliasMaximum
    username := if asked.username = some [] then none else asked.username }
  id : asked.clientId ≠ [] → v.clientId = asked.clientId
  made : asked.clientId = [] → o.extended = true → v.clientId = [103, 101, 110] ++ uuid

end Mqtt.Options5
