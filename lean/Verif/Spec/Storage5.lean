import Verif.Storage5

/-!
What a view of a packet says: its fields with the bytes its cursors point to. `none` if a cursor points to memory that is not
there.
-/
namespace Mqtt.Storage5
open Mqtt.V5

def readOpt (mem : Memory) : Option Cursor → Option (Option Bytes)
  | none => some none
  | some c => (mem.read c).map some

def readProps (mem : Memory) : List RawProperty → Option (List UserProperty)
  | [] => some []
  | p :: ps => do
    let name ← mem.read p.name
    let value ← mem.read p.value
    return { name, value } :: (← readProps mem ps)

def readFilters (mem : Memory) : List Cursor → Option (List Bytes)
  | [] => some []
  | c :: cs => do
    let b ← mem.read c
    return b :: (← readFilters mem cs)

def readSubscriptions (mem : Memory) : List RawSubscription → Option (List SubscriptionView)
  | [] => some []
  | s :: ss => do
    let topicFilter ← mem.read s.topicFilter
    return {
      topicFilter
      qos := s.qos
      noLocal := s.noLocal
      retainAsPublished := s.retainAsPublished
      retainHandling := s.retainHandling } :: (← readSubscriptions mem ss)

def RawPublish.read (mem : Memory) (v : RawPublish) : Option PublishView := do
  let payload ← mem.read v.payload
  let topic ← mem.read v.topic
  let responseTopic ← readOpt mem v.responseTopic
  let correlationData ← readOpt mem v.correlationData
  let contentType ← readOpt mem v.contentType
  let userProperties ← readProps mem v.userProperties
  return {
    payload
    packetId := v.packetId
    qos := v.qos
    duplicate := v.duplicate
    retain := v.retain
    topic
    payloadFormat := v.payloadFormat
    messageExpiry := v.messageExpiry
    topicAlias := v.topicAlias
    responseTopic
    correlationData
    subscriptionIdentifiers := v.subscriptionIdentifiers
    contentType
    userProperties }

def readWill (mem : Memory) : Option RawPublish → Option (Option PublishView)
  | none => some none
  | some w => (w.read mem).map some

def RawConnect.read (mem : Memory) (v : RawConnect) : Option ConnectView := do
  let clientId ← mem.read v.clientId
  let username ← readOpt mem v.username
  let password ← readOpt mem v.password
  let will ← readWill mem v.will
  let userProperties ← readProps mem v.userProperties
  let authMethod ← readOpt mem v.authMethod
  let authData ← readOpt mem v.authData
  return {
    keepAlive := v.keepAlive
    clientId
    username
    password
    cleanStart := v.cleanStart
    sessionExpiry := v.sessionExpiry
    requestResponse := v.requestResponse
    requestProblem := v.requestProblem
    receiveMaximum := v.receiveMaximum
    topicAliasMaximum := v.topicAliasMaximum
    maximumPacketSize := v.maximumPacketSize
    willDelay := v.willDelay
    will
    userProperties
    authMethod
    authData }

def RawConnack.read (mem : Memory) (v : RawConnack) : Option ConnackView := do
  let assignedClientId ← readOpt mem v.assignedClientId
  let reasonString ← readOpt mem v.reasonString
  let userProperties ← readProps mem v.userProperties
  let responseInformation ← readOpt mem v.responseInformation
  let serverReference ← readOpt mem v.serverReference
  let authMethod ← readOpt mem v.authMethod
  let authData ← readOpt mem v.authData
  return {
    sessionPresent := v.sessionPresent
    reasonCode := v.reasonCode
    sessionExpiry := v.sessionExpiry
    receiveMaximum := v.receiveMaximum
    maximumQos := v.maximumQos
    retainAvailable := v.retainAvailable
    maximumPacketSize := v.maximumPacketSize
    assignedClientId
    topicAliasMaximum := v.topicAliasMaximum
    reasonString
    userProperties
    wildcardSubscriptions := v.wildcardSubscriptions
    subscriptionIdentifiers := v.subscriptionIdentifiers
    sharedSubscriptions := v.sharedSubscriptions
    serverKeepAlive := v.serverKeepAlive
    responseInformation
    serverReference
    authMethod
    authData }

def RawDisconnect.read (mem : Memory) (v : RawDisconnect) : Option DisconnectView := do
  let reasonString ← readOpt mem v.reasonString
  let userProperties ← readProps mem v.userProperties
  let serverReference ← readOpt mem v.serverReference
  return { reasonCode := v.reasonCode, sessionExpiry := v.sessionExpiry, reasonString, userProperties, serverReference }

def RawPuback.read (mem : Memory) (v : RawPuback) : Option PubackView := do
  let reasonString ← readOpt mem v.reasonString
  let userProperties ← readProps mem v.userProperties
  return { packetId := v.packetId, reasonCode := v.reasonCode, reasonString, userProperties }

def RawSubscribe.read (mem : Memory) (v : RawSubscribe) : Option SubscribeView := do
  let subscriptions ← readSubscriptions mem v.subscriptions
  let userProperties ← readProps mem v.userProperties
  return { packetId := v.packetId, subscriptions, subscriptionIdentifier := v.subscriptionIdentifier, userProperties }

def RawUnsubscribe.read (mem : Memory) (v : RawUnsubscribe) : Option UnsubscribeView := do
  let topicFilters ← readFilters mem v.topicFilters
  let userProperties ← readProps mem v.userProperties
  return { packetId := v.packetId, topicFilters, userProperties }

def RawSuback.read (mem : Memory) (v : RawSuback) : Option SubackView := do
  let reasonString ← readOpt mem v.reasonString
  let userProperties ← readProps mem v.userProperties
  return { packetId := v.packetId, reasonString, userProperties, reasonCodes := v.reasonCodes }

/-- A buffer that is in memory as it was left: nothing is asked of the rest of the memory. -/
def Buf.Kept (b : Buf) (mem : Memory) : Prop := mem b.block = some b.bytes

/-- A packet was stored: its buffer is full, and in every memory in which the buffer is kept, the stored view says `v`. -/
def Stored {α β : Type} (read : Memory → α → Option β) (block : Nat) (v : β) (r : Except StoreError (α × Buf)) : Prop :=
  ∃ a b, r = .ok (a, b) ∧ b.block = block ∧ b.bytes.length = b.cap ∧ ∀ mem : Memory, b.Kept mem → read mem a = some v

/-- The same for a CONNECT, whose will has a buffer of its own. -/
def ConnectStored (block willBlock : Nat) (v : ConnectView) (r : Except StoreError (RawConnect × Buf × Option Buf)) : Prop :=
  ∃ a b wb, r = .ok (a, b, wb) ∧ b.block = block ∧ b.bytes.length = b.cap ∧ (wb = none ↔ v.will = none) ∧
    (∀ x ∈ wb, x.block = willBlock ∧ x.bytes.length = x.cap) ∧
    ∀ mem : Memory, b.Kept mem → (∀ x ∈ wb, x.Kept mem) → a.read mem = some v

/-- An empty user name is none. -/
def withoutEmpty (v : ConnectView) : ConnectView :=
  { v with username := if v.username.any (fun s => s.length > 0) then v.username else none }

end Mqtt.Storage5
