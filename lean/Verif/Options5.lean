import Verif.Client5
import Verif.Metrics

/-!
Options of the MQTT 5 client (/repo/source/v5/mqtt5_options_storage.c:3400-3483, 3842-4055), from which
`aws_mqtt5_client_new` makes a client.

Simplifications: allocation, copying TLS options, the proxy configuration and making a UUID do not fail.
`aws_socket_validate_port_for_connect` (aws-c-io) is a parameter. Handlers, the bootstrap and user data are
present or not. TLS, proxy strategy, host resolution and websocket options are passed on and left out here.
-/
namespace Mqtt.Options5

open Mqtt.V5

/-- `struct aws_socket_options`, as far as it is validated. -/
structure Socket where
  datagram : Bool := false
  connectTimeoutMs : Nat := 0
  domain : Nat := 0
deriving DecidableEq, Repr

/-- `struct aws_mqtt5_client_topic_alias_options` (mqtt5_client.h:125-158); behaviors are numbers of the enums. -/
structure Aliasing where
  outbound : Nat := 0
  outboundMax : Nat := 0
  inbound : Nat := 0
  inboundSize : Nat := 0
deriving DecidableEq, Repr

/-- `enum aws_mqtt5_client_session_behavior_type` (mqtt5_client.h:30-55). -/
inductive Session where
  | default | clean | rejoinPostSuccess | rejoinAlways
deriving DecidableEq, Repr

/-- `enum aws_mqtt5_client_operation_queue_behavior_type`. -/
inductive Offline where
  | default | failNonQos1 | failQos0 | failAll
deriving DecidableEq, Repr

/-- `struct aws_mqtt5_client_options` (mqtt5_client.h:540-719). -/
structure Options where
  hostName : Bytes := []
  port : Nat := 0
  bootstrap : Bool := false
  socket : Option Socket := none
  proxy : Option (Bytes × Nat) := none
  connect : Option ConnectView := none
  session : Session := .default
  extended : Bool := false
  offline : Offline := .default
  retry : Reconnect.Config := {}
  pingTimeoutMs : Nat := 0
  connackTimeoutMs : Nat := 0
  ackTimeoutSeconds : Nat := 0
  aliasing : Option Aliasing := none
  publishHandler : Bool := false
  lifecycleHandler : Bool := false
  metrics : Option Metrics.Metrics := none
deriving DecidableEq, Repr

/-- `aws_mqtt5_client_options_validate` (3400-3483); `portOk port domain` is
`aws_socket_validate_port_for_connect`, domain 0 is IPv4. -/
def validate (portOk : Nat → Nat → Bool) (o : Options) : Bool :=
  if o.hostName.length = 0 then false                                              -- 3406-3409
  else if !o.bootstrap then false                                                  -- 3411-3414
  else if o.socket.any (fun s => s.datagram || s.connectTimeoutMs = 0) then false  -- 3417-3422
  else if !portOk o.port ((o.socket.map Socket.domain).getD 0) then false          -- 3424-3428
  else if o.proxy.any (fun p => p.1.length = 0) then false                         -- 3430-3434
  else if o.proxy.any (fun p => !portOk p.2 0) then false                          -- 3436-3439
  else if !o.lifecycleHandler then false                                           -- 3443-3446
  else if !o.publishHandler then false                                             -- 3448-3451
  else
    match o.connect with
    | none => false                                                                -- 334-337
    | some v =>
      if !validateConnect v then false                                             -- 3453-3457
      else if o.aliasing.any (fun a => a.outbound > 3) then false                  -- 3460-3464
      else if o.aliasing.any (fun a => a.inbound > 2) then false                   -- 3466-3470
      else o.metrics.all Metrics.validMetrics                                      -- 3473-3478

/-- `aws_mqtt5_client_session_behavior_type_to_non_default` (mqtt5_utils.c:280-287). -/
def Session.resolve : Session → SessionBehavior
  | .default => .clean
  | .clean => .clean
  | .rejoinPostSuccess => .rejoinPostSuccess
  | .rejoinAlways => .rejoinAlways

/-- `aws_mqtt5_client_operation_queue_behavior_type_to_non_default` (mqtt5_utils.c:374-381). -/
def Offline.resolve : Offline → Client5.OfflineBehavior
  | .default => .failQos0
  | .failNonQos1 => .failNonQos1
  | .failQos0 => .failQos0
  | .failAll => .failAll

/-- `aws_mqtt5_outbound_topic_alias_behavior_type_to_non_default` (mqtt5_utils.c:311-318). -/
def outboundBehavior (n : Nat) : TopicAlias.Behavior :=
  if n = 0 then .disabled else if n = 1 then .manual else if n = 2 then .lru else .disabled

/-- `struct aws_mqtt5_client_options_storage`, as far as the client uses it. -/
structure Storage where
  client : Client5.Config
  retry : Reconnect.Config
  aliasing : Aliasing
  metrics : Option Metrics.Metrics
deriving DecidableEq, Repr

/-- The client id put into the stored CONNECT options (3967-4023); `uuid` is the compact form of a new UUID, `gen` goes
before it. -/
def clientIdFor (uuid : Bytes) (extended : Bool) (id : Bytes) : Bytes :=
  if id.length = 0 ∧ extended then [103, 101, 110] ++ uuid else id

/-- The part of the zero-valued defaults (3869-3877) about topic aliases. -/
def Aliasing.withDefaults (a : Aliasing) : Aliasing :=
  { a with
    inboundSize := if a.inboundSize = 0 then 25 else a.inboundSize
    outboundMax := if a.outboundMax = 0 then 25 else a.outboundMax }

/-- `aws_mqtt5_client_options_storage_new` (3880-4055). The behavior of the client that depends on alias options
(mqtt5_client.c:1223-1226, 2118-2119) is in `client`. -/
def store (portOk : Nat → Nat → Bool) (uuid : Bytes) (o : Options) : Option Storage :=
  if !validate portOk o then none                                                  -- 3886-3888
  else
    match o.connect with
    | none => none
    | some v =>
      let a := (o.aliasing.getD {}).withDefaults                                   -- 3963-3965, 3869-3877
      let v := { v with clientId := clientIdFor uuid o.extended v.clientId }
      some {
        client := {
          offline := o.offline.resolve
          session := o.session.resolve
          ackTimeoutSeconds := if o.ackTimeoutSeconds = 0 then 60 else o.ackTimeoutSeconds     -- 3865-3867
          pingTimeoutMs := if o.pingTimeoutMs = 0 then 30000 else o.pingTimeoutMs             -- 3857-3859
          connackTimeoutMs := if o.connackTimeoutMs = 0 then 20000 else o.connackTimeoutMs    -- 3861-3863
          connect := { v with username := if v.username.any (fun s => s.length > 0) then v.username else none }
          inboundAliases := if a.inbound = 1 then some a.inboundSize else none
          outboundAliases := outboundBehavior a.outbound
          extended := o.extended }
        retry := o.retry.withDefaults                                              -- 3842-3855
        aliasing := a
        metrics := o.metrics }                                                     -- 4044

end Mqtt.Options5
