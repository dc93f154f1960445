import Verif.Views5
import Verif.Vli5

/-!
Negotiated settings of an MQTT 5 connection (source/v5/mqtt5_utils.c:110-264) and the two places
that use them: sending CONNECT (source/v5/mqtt5_client.c:1220-1243) and receiving a successful
CONNACK (1754).

Byte buffer appends do not fail (allocation aborts on exhaustion in aws-c-common), so the functions
that append to `client_id_storage` are total.
-/
namespace Mqtt.V5

/-- `struct aws_mqtt5_negotiated_settings` (include/aws/mqtt/v5/mqtt5_client.h:399-461). -/
structure Settings where
  maximumQos : Nat := 0
  sessionExpiry : Nat := 0
  receiveMaximumFromServer : Nat := 0
  maximumPacketSizeToServer : Nat := 0
  topicAliasMaximumToServer : Nat := 0
  topicAliasMaximumToClient : Nat := 0
  serverKeepAlive : Nat := 0
  retainAvailable : Bool := false
  wildcardSubscriptions : Bool := false
  subscriptionIdentifiers : Bool := false
  sharedSubscriptions : Bool := false
  rejoinedSession : Bool := false
  clientId : Bytes := []
deriving DecidableEq, Repr

/-- `aws_mqtt5_negotiated_settings_init` (111-124), called by `aws_mqtt5_client_new`
(mqtt5_client.c:2124) on a structure zeroed by `aws_mem_calloc`. -/
def Settings.init (clientId : Bytes) : Settings := { clientId := clientId }

/-- `aws_mqtt5_negotiated_settings_apply_client_id` (144-155): only fills an empty buffer. -/
def Settings.applyClientId (s : Settings) (id : Bytes) : Settings :=
  if s.clientId.length = 0 then { s with clientId := s.clientId ++ id } else s

/-- `if (ptr != NULL) { settings->field = *ptr; }`. -/
def Settings.set {α} (s : Settings) (o : Option α) (f : Settings → α → Settings) : Settings :=
  match o with
  | some x => f s x
  | none => s

/-- `aws_mqtt5_negotiated_settings_reset` (162-202). -/
def Settings.reset (s : Settings) (c : ConnectView) : Settings :=
  let s := { s with
    serverKeepAlive := c.keepAlive
    sessionExpiry := 0
    receiveMaximumFromServer := 65535
    maximumPacketSizeToServer := 5 + maxVli
    topicAliasMaximumToClient := 0
    maximumQos := 1
    topicAliasMaximumToServer := 0
    retainAvailable := true
    wildcardSubscriptions := true
    subscriptionIdentifiers := true
    sharedSubscriptions := true
    rejoinedSession := false }
  let s := s.set c.sessionExpiry fun s x => { s with sessionExpiry := x }
  s.set c.topicAliasMaximum fun s x => { s with topicAliasMaximumToClient := x }

/-- `aws_mqtt5_negotiated_settings_apply_connack` (204-264). -/
def Settings.applyConnack (s : Settings) (k : ConnackView) : Settings :=
  let s := s.set k.sessionExpiry fun s x => { s with sessionExpiry := x }
  let s := s.set k.receiveMaximum fun s x => { s with receiveMaximumFromServer := x }
  let s := s.set k.maximumQos fun s q =>
    if q < s.maximumQos then { s with maximumQos := q } else s
  let s := s.set k.retainAvailable fun s x => { s with retainAvailable := x }
  let s := s.set k.maximumPacketSize fun s x => { s with maximumPacketSizeToServer := x }
  let s := s.set k.topicAliasMaximum fun s x => { s with topicAliasMaximumToServer := x }
  let s := s.set k.wildcardSubscriptions fun s x => { s with wildcardSubscriptions := x }
  let s := s.set k.subscriptionIdentifiers fun s x => { s with subscriptionIdentifiers := x }
  let s := s.set k.sharedSubscriptions fun s x => { s with sharedSubscriptions := x }
  let s := s.set k.serverKeepAlive fun s x => { s with serverKeepAlive := x }
  let s := s.set k.assignedClientId fun s x => s.applyClientId x
  { s with rejoinedSession := k.sessionPresent }

/-- `enum aws_mqtt5_client_session_behavior_type` with `to_non_default` applied
(mqtt5_utils.c:280-287). -/
inductive SessionBehavior
  | clean | rejoinPostSuccess | rejoinAlways
deriving DecidableEq, Repr

/-- `s_should_resume_session` (mqtt5_client.c:1196-1203). -/
def shouldResume (b : SessionBehavior) (hasConnected : Bool) : Bool :=
  (b == .rejoinPostSuccess && hasConnected) || b == .rejoinAlways

/-- The CONNECT view built when entering MQTT_CONNECT (mqtt5_client.c:1220-1229): the stored options
with `clean_start`, the inbound alias cache size when inbound aliasing is enabled, and the client id
currently held in the negotiated settings. -/
def connectView (stored : ConnectView) (b : SessionBehavior) (hasConnected : Bool)
    (inboundAliases : Option Nat) (s : Settings) : Settings × ConnectView :=
  let c := { stored with cleanStart := !shouldResume b hasConnected }
  let c := match inboundAliases with
    | some n => { c with topicAliasMaximum := some n }
    | none => c
  let s := s.reset c
  (s, { c with clientId := s.clientId })

end Mqtt.V5
