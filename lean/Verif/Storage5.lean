import Verif.Views5
import Verif.Metrics

/-!
Storage of MQTT 5 packets (/repo/source/v5/mqtt5_options_storage.c, line numbers below): the options a caller gives point into
memory of the caller; an operation has a copy of everything in memory of its own.

Memory consists of blocks; a cursor is an address and a length. The arrays and fields of a stored view that are not bytes are
in the storage structure itself; they are values here. Sizes do not wrap (all of it is memory of the caller), and memory can
be allocated.
-/
namespace Mqtt.Storage5
open Mqtt.V5

/-- Blocks of memory; `none` for a block that has been freed. -/
abbrev Memory := Nat → Option Bytes

/-- `struct aws_byte_cursor`. -/
structure Cursor where
  block : Nat
  off : Nat
  len : Nat
deriving DecidableEq, Repr

/-- The bytes at a cursor; `none` is an invalid access. Nothing is read at a cursor without bytes. -/
def Memory.read (mem : Memory) (c : Cursor) : Option Bytes :=
  if c.len = 0 then some []
  else (mem c.block).bind fun b => if c.off + c.len ≤ b.length then some ((b.drop c.off).take c.len) else none

/-- `struct aws_byte_buf`. -/
structure Buf where
  block : Nat
  cap : Nat
  bytes : Bytes := []
deriving DecidableEq, Repr

inductive StoreError where
  /-- `AWS_OP_ERR`. -/
  | failed
  /-- An access to memory that is not there. -/
  | invalid
  /-- The process ends (see `Metrics.append`). -/
  | crash
deriving DecidableEq, Repr

/-- What is done with a buffer. -/
def Store (α : Type) := Memory → Buf → Except StoreError (α × Buf)

instance : Monad Store where
  pure a := fun _ b => .ok (a, b)
  bind x f := fun mem b => match x mem b with
    | .ok (a, b') => f a mem b'
    | .error e => .error e

/-- `aws_byte_buf_append_and_update`. -/
def copy (c : Cursor) : Store Cursor := fun mem b =>
  match mem.read c with
  | none => .error .invalid
  | some bs =>
    if b.cap < b.bytes.length + bs.length then .error .failed
    else .ok ({ block := b.block, off := b.bytes.length, len := c.len }, { b with bytes := b.bytes ++ bs })

/-- The same for bytes of a buffer that is freed afterwards. -/
def copyBytes (bs : Bytes) : Store Cursor := fun _ b =>
  if b.cap < b.bytes.length + bs.length then .error .failed
  else .ok ({ block := b.block, off := b.bytes.length, len := bs.length }, { b with bytes := b.bytes ++ bs })

/-- An optional field. -/
def copyOpt : Option Cursor → Store (Option Cursor)
  | none => pure none
  | some c => do return some (← copy c)

def optSize : Option Cursor → Nat
  | none => 0
  | some c => c.len

/-! ### User properties (20-132) -/

/-- `struct aws_mqtt5_user_property`. -/
structure RawProperty where
  name : Cursor
  value : Cursor
deriving DecidableEq, Repr

/-- `aws_mqtt5_user_property_set_init_with_storage` (37-74). -/
def copyProps : List RawProperty → Store (List RawProperty)
  | [] => pure []
  | p :: ps => do
    let name ← copy p.name
    let value ← copy p.value
    return { name, value } :: (← copyProps ps)

/-- `s_aws_mqtt5_user_property_set_compute_storage_size` (121-132). -/
def propsSize : List RawProperty → Nat
  | [] => 0
  | p :: ps => p.name.len + p.value.len + propsSize ps

/-! ### PUBLISH -/

/-- `struct aws_mqtt5_packet_publish_view`. -/
structure RawPublish where
  payload : Cursor
  packetId : Nat
  qos : Nat
  duplicate : Bool
  retain : Bool
  topic : Cursor
  payloadFormat : Option Nat
  messageExpiry : Option Nat
  topicAlias : Option Nat
  responseTopic : Option Cursor
  correlationData : Option Cursor
  subscriptionIdentifiers : List Nat
  contentType : Option Cursor
  userProperties : List RawProperty
deriving DecidableEq, Repr

/-- `s_aws_mqtt5_packet_publish_compute_storage_size` (1926-1947). -/
def publishSize (v : RawPublish) : Nat :=
  propsSize v.userProperties + v.topic.len + v.payload.len + optSize v.responseTopic + optSize v.correlationData +
    optSize v.contentType

/-- `aws_mqtt5_packet_publish_storage_init` (1949-2044). -/
def publishStore (v : RawPublish) : Store RawPublish := do
  let payload ← copy v.payload                                   -- 1968-1971
  let topic ← copy v.topic                                       -- 1977-1980
  let responseTopic ← copyOpt v.responseTopic                    -- 1997-2004
  let correlationData ← copyOpt v.correlationData                -- 2006-2013
  let contentType ← copyOpt v.contentType                        -- 2023-2030
  let userProperties ← copyProps v.userProperties                -- 2032-2041
  return {
    payload
    packetId := v.packetId
    qos := v.qos
    duplicate := v.duplicate
    retain := v.retain
    topic
    payloadFormat := v.payloadFormat
    messageExpiry := v.messageExpiry
    topicAlias := v.topicAlias
    responseTopic
    correlationData
    subscriptionIdentifiers := v.subscriptionIdentifiers
    contentType
    userProperties }

/-- With a new buffer. -/
def publishStorage (mem : Memory) (block : Nat) (v : RawPublish) : Except StoreError (RawPublish × Buf) :=
  publishStore v mem { block, cap := publishSize v }

/-! ### CONNECT -/

/-- `struct aws_mqtt5_packet_connect_view`. -/
structure RawConnect where
  keepAlive : Nat
  clientId : Cursor
  username : Option Cursor
  password : Option Cursor
  cleanStart : Bool
  sessionExpiry : Option Nat
  requestResponse : Option Nat
  requestProblem : Option Nat
  receiveMaximum : Option Nat
  topicAliasMaximum : Option Nat
  maximumPacketSize : Option Nat
  willDelay : Option Nat
  will : Option RawPublish
  userProperties : List RawProperty
  authMethod : Option Cursor
  authData : Option Cursor
deriving DecidableEq, Repr

/-- The user name with metrics; `metrics` is that of the client's options, `none` if there are no options
(`aws_mqtt5_client_options_storage_new` stores the CONNECT of the options without them). `output` tells whether the name is
asked for or only its size. -/
def withMetrics (platform : Bytes) (metrics : Option (Option Metrics.Metrics)) (username : Bytes) (output : Bool) :
    Metrics.Result :=
  match metrics with
  | none => .ok username
  | some m => Metrics.append platform username m output

/-- `aws_mqtt_has_non_empty_username`. -/
def hasUsername (metrics : Option (Option Metrics.Metrics)) (username : Option Cursor) : Bool :=
  username.any (·.len > 0) || (metrics.join).isSome

/-- The bytes of the user name, nothing if there is none. -/
def usernameBytes (mem : Memory) : Option Cursor → Option Bytes
  | none => some []
  | some c => mem.read c

/-- `s_aws_mqtt5_packet_connect_compute_storage_size` (638-680); `u` are the bytes of the user name. If the size of the user
name cannot be computed it is 0. -/
def connectSize (platform : Bytes) (metrics : Option (Option Metrics.Metrics)) (u : Bytes) (v : RawConnect) : Nat :=
  v.clientId.len +
  (if hasUsername metrics v.username then
    match withMetrics platform metrics u false with
    | .ok name => name.length
    | _ => 0
   else 0) +
  optSize v.password + propsSize v.userProperties + optSize v.authMethod + optSize v.authData

/-- The user name (704-732); `u` are its bytes in the options. -/
def usernameStore (platform : Bytes) (metrics : Option (Option Metrics.Metrics)) (u : Bytes) (username : Option Cursor) :
    Store (Option Cursor) :=
  if hasUsername metrics username then
    match withMetrics platform metrics u true with
    | .ok name => do return some (← copyBytes name)
    | .error => fun _ _ => .error .failed
    | .crash => fun _ _ => .error .crash
  else pure none

/-- The will, which has a buffer of its own (773-784). -/
def willStore (mem : Memory) (block : Nat) : Option RawPublish → Except StoreError (Option (RawPublish × Buf))
  | none => .ok none
  | some w => (publishStorage mem block w).map some

/-- `aws_mqtt5_packet_connect_storage_init` (682-824), with the will stored. -/
def connectStore (platform : Bytes) (metrics : Option (Option Metrics.Metrics)) (u : Bytes) (v : RawConnect)
    (will : Option RawPublish) : Store RawConnect := do
  let clientId ← copy v.clientId                                              -- 699-702
  let username ← usernameStore platform metrics u v.username                  -- 704-732
  let password ← copyOpt v.password                                           -- 734-741
  let userProperties ← copyProps v.userProperties                             -- 791-801
  let authMethod ← copyOpt v.authMethod                                       -- 803-811
  let authData ← copyOpt v.authData                                           -- 813-821
  return {
    keepAlive := v.keepAlive
    clientId
    username
    password
    cleanStart := v.cleanStart
    sessionExpiry := v.sessionExpiry
    requestResponse := v.requestResponse
    requestProblem := v.requestProblem
    receiveMaximum := v.receiveMaximum
    topicAliasMaximum := v.topicAliasMaximum
    maximumPacketSize := v.maximumPacketSize
    willDelay := v.willDelay
    will
    userProperties
    authMethod
    authData }

/-- With new buffers: `block` for the packet and `willBlock` for its will. The will is stored first here; in the code between
password and user properties, which is the same as its buffer is another one. -/
def connectStorage (platform : Bytes) (metrics : Option (Option Metrics.Metrics)) (mem : Memory) (block willBlock : Nat)
    (v : RawConnect) : Except StoreError (RawConnect × Buf × Option Buf) :=
  match usernameBytes mem v.username with
  | none => .error .invalid
  | some u =>
    if hasUsername metrics v.username ∧ withMetrics platform metrics u false = .crash then .error .crash       -- 649-658
    else match willStore mem willBlock v.will with
    | .error e => .error e
    | .ok w =>
      match connectStore platform metrics u v (w.map (·.1)) mem { block, cap := connectSize platform metrics u v } with
      | .error e => .error e
      | .ok (r, b) => .ok (r, b, w.map (·.2))

/-! ### CONNACK -/

/-- `struct aws_mqtt5_packet_connack_view`. -/
structure RawConnack where
  sessionPresent : Bool
  reasonCode : Nat
  sessionExpiry : Option Nat
  receiveMaximum : Option Nat
  maximumQos : Option Nat
  retainAvailable : Option Bool
  maximumPacketSize : Option Nat
  assignedClientId : Option Cursor
  topicAliasMaximum : Option Nat
  reasonString : Option Cursor
  userProperties : List RawProperty
  wildcardSubscriptions : Option Bool
  subscriptionIdentifiers : Option Bool
  sharedSubscriptions : Option Bool
  serverKeepAlive : Option Nat
  responseInformation : Option Cursor
  serverReference : Option Cursor
  authMethod : Option Cursor
  authData : Option Cursor
deriving DecidableEq, Repr

/-- `s_aws_mqtt5_packet_connack_compute_storage_size` (894-929). -/
def connackSize (v : RawConnack) : Nat :=
  optSize v.assignedClientId + optSize v.reasonString + optSize v.responseInformation + optSize v.serverReference +
    optSize v.authMethod + optSize v.authData + propsSize v.userProperties

/-- `aws_mqtt5_packet_connack_storage_init` (931-1066). -/
def connackStore (v : RawConnack) : Store RawConnack := do
  let assignedClientId ← copyOpt v.assignedClientId              -- 974-981
  let reasonString ← copyOpt v.reasonString                      -- 988-995
  let responseInformation ← copyOpt v.responseInformation        -- 1017-1024
  let serverReference ← copyOpt v.serverReference                -- 1026-1033
  let authMethod ← copyOpt v.authMethod                          -- 1035-1042
  let authData ← copyOpt v.authData                              -- 1044-1051
  let userProperties ← copyProps v.userProperties                -- 1053-1063
  return { v with assignedClientId, reasonString, responseInformation, serverReference, authMethod, authData, userProperties }

def connackStorage (mem : Memory) (block : Nat) (v : RawConnack) : Except StoreError (RawConnack × Buf) :=
  connackStore v mem { block, cap := connackSize v }

/-! ### DISCONNECT -/

/-- `struct aws_mqtt5_packet_disconnect_view`. -/
structure RawDisconnect where
  reasonCode : Nat
  sessionExpiry : Option Nat
  reasonString : Option Cursor
  userProperties : List RawProperty
  serverReference : Option Cursor
deriving DecidableEq, Repr

/-- `s_aws_mqtt5_packet_disconnect_compute_storage_size` (1434-1448). -/
def disconnectSize (v : RawDisconnect) : Nat :=
  propsSize v.userProperties + optSize v.reasonString + optSize v.serverReference

/-- `aws_mqtt5_packet_disconnect_storage_init` (1450-1501). -/
def disconnectStore (v : RawDisconnect) : Store RawDisconnect := do
  let reasonString ← copyOpt v.reasonString
  let serverReference ← copyOpt v.serverReference
  let userProperties ← copyProps v.userProperties
  return { v with reasonString, serverReference, userProperties }

def disconnectStorage (mem : Memory) (block : Nat) (v : RawDisconnect) : Except StoreError (RawDisconnect × Buf) :=
  disconnectStore v mem { block, cap := disconnectSize v }

/-! ### PUBACK -/

/-- `struct aws_mqtt5_packet_puback_view`. -/
structure RawPuback where
  packetId : Nat
  reasonCode : Nat
  reasonString : Option Cursor
  userProperties : List RawProperty
deriving DecidableEq, Repr

/-- `s_aws_mqtt5_packet_puback_compute_storage_size` (2177-2186). -/
def pubackSize (v : RawPuback) : Nat := propsSize v.userProperties + optSize v.reasonString

/-- `aws_mqtt5_packet_puback_storage_init` (2188-2224). -/
def pubackStore (v : RawPuback) : Store RawPuback := do
  let reasonString ← copyOpt v.reasonString
  let userProperties ← copyProps v.userProperties
  return { v with reasonString, userProperties }

def pubackStorage (mem : Memory) (block : Nat) (v : RawPuback) : Except StoreError (RawPuback × Buf) :=
  pubackStore v mem { block, cap := pubackSize v }

/-! ### SUBSCRIBE -/

/-- `struct aws_mqtt5_subscription_view`. -/
structure RawSubscription where
  topicFilter : Cursor
  qos : Nat
  noLocal : Bool
  retainAsPublished : Bool
  retainHandling : Nat
deriving DecidableEq, Repr

/-- `struct aws_mqtt5_packet_subscribe_view`. -/
structure RawSubscribe where
  packetId : Nat
  subscriptions : List RawSubscription
  subscriptionIdentifier : Option Nat
  userProperties : List RawProperty
deriving DecidableEq, Repr

/-- `s_aws_mqtt5_packet_subscribe_storage_init_subscriptions` (2869-2897). -/
def copySubscriptions : List RawSubscription → Store (List RawSubscription)
  | [] => pure []
  | s :: ss => do
    let topicFilter ← copy s.topicFilter
    return { s with topicFilter } :: (← copySubscriptions ss)

def subscriptionsSize : List RawSubscription → Nat
  | [] => 0
  | s :: ss => s.topicFilter.len + subscriptionsSize ss

/-- `s_aws_mqtt5_packet_subscribe_compute_storage_size` (2899-2910). -/
def subscribeSize (v : RawSubscribe) : Nat := propsSize v.userProperties + subscriptionsSize v.subscriptions

/-- `aws_mqtt5_packet_subscribe_storage_init` (2912-2950). -/
def subscribeStore (v : RawSubscribe) : Store RawSubscribe := do
  let subscriptions ← copySubscriptions v.subscriptions
  let userProperties ← copyProps v.userProperties
  return { v with subscriptions, userProperties }

def subscribeStorage (mem : Memory) (block : Nat) (v : RawSubscribe) : Except StoreError (RawSubscribe × Buf) :=
  subscribeStore v mem { block, cap := subscribeSize v }

/-! ### UNSUBSCRIBE -/

/-- `struct aws_mqtt5_packet_unsubscribe_view`. -/
structure RawUnsubscribe where
  packetId : Nat
  topicFilters : List Cursor
  userProperties : List RawProperty
deriving DecidableEq, Repr

/-- `s_aws_mqtt5_packet_unsubscribe_build_topic_list` (2485-2510). -/
def copyFilters : List Cursor → Store (List Cursor)
  | [] => pure []
  | c :: cs => do
    let c ← copy c
    return c :: (← copyFilters cs)

def filtersSize : List Cursor → Nat
  | [] => 0
  | c :: cs => c.len + filtersSize cs

/-- `s_aws_mqtt5_packet_unsubscribe_compute_storage_size` (2512-2523). -/
def unsubscribeSize (v : RawUnsubscribe) : Nat := propsSize v.userProperties + filtersSize v.topicFilters

/-- `aws_mqtt5_packet_unsubscribe_storage_init` (2525-2560); the packet id stays 0. -/
def unsubscribeStore (v : RawUnsubscribe) : Store RawUnsubscribe := do
  let topicFilters ← copyFilters v.topicFilters
  let userProperties ← copyProps v.userProperties
  return { packetId := 0, topicFilters, userProperties }

def unsubscribeStorage (mem : Memory) (block : Nat) (v : RawUnsubscribe) : Except StoreError (RawUnsubscribe × Buf) :=
  unsubscribeStore v mem { block, cap := unsubscribeSize v }

/-! ### SUBACK and UNSUBACK -/

/-- `struct aws_mqtt5_packet_suback_view` and `struct aws_mqtt5_packet_unsuback_view`. -/
structure RawSuback where
  packetId : Nat
  reasonString : Option Cursor
  userProperties : List RawProperty
  reasonCodes : List Nat
deriving DecidableEq, Repr

/-- `s_aws_mqtt5_packet_suback_compute_storage_size` (3080-3089), `s_aws_mqtt5_packet_unsuback_compute_storage_size`
(3223-3233). -/
def subackSize (v : RawSuback) : Nat := propsSize v.userProperties + optSize v.reasonString

/-- `aws_mqtt5_packet_suback_storage_init` (3109-3151), `aws_mqtt5_packet_unsuback_storage_init` (3256-3298). -/
def subackStore (v : RawSuback) : Store RawSuback := do
  let reasonString ← copyOpt v.reasonString
  let userProperties ← copyProps v.userProperties
  return { v with reasonString, userProperties }

def subackStorage (mem : Memory) (block : Nat) (v : RawSuback) : Except StoreError (RawSuback × Buf) :=
  subackStore v mem { block, cap := subackSize v }

end Mqtt.Storage5
