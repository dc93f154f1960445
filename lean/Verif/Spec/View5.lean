import Verif.Encoder5
import Verif.Spec.Wire5

/-!
What the fields of an MQTT 5 packet view mean on the wire, and which views are representable there:
the ranges of the C field types and of MQTT 5 (strings of at most 65535 bytes, at most 1024 user
properties as /repo's validation enforces, QoS 0 to 2, packet identifier present iff QoS is not 0).
-/
namespace Mqtt.V5
open Mqtt.Spec5

def Short (s : Bytes) : Prop := s.length ≤ 65535
def OptShort (o : Option Bytes) : Prop := ∀ s, o = some s → Short s
def OptLt (n : Nat) (o : Option Nat) : Prop := ∀ x, o = some x → x < n

def UserFits (ps : List UserProperty) : Prop :=
  ps.length ≤ 1024 ∧ ∀ p ∈ ps, Short p.name ∧ Short p.value

structure PublishFits (v : PublishView) : Prop where
  qos : v.qos ≤ 2
  packetId : v.packetId < 65536
  packetIdQos : v.packetId ≠ 0 ↔ v.qos ≠ 0
  topic : Short v.topic
  payloadFormat : OptLt 256 v.payloadFormat
  messageExpiry : OptLt 4294967296 v.messageExpiry
  topicAlias : OptLt 65536 v.topicAlias
  responseTopic : OptShort v.responseTopic
  correlationData : OptShort v.correlationData
  contentType : OptShort v.contentType
  userProperties : UserFits v.userProperties

structure WillFits (w : PublishView) : Prop where
  qos : w.qos ≤ 2
  topic : Short w.topic
  payload : Short w.payload
  payloadFormat : OptLt 256 w.payloadFormat
  messageExpiry : OptLt 4294967296 w.messageExpiry
  responseTopic : OptShort w.responseTopic
  correlationData : OptShort w.correlationData
  contentType : OptShort w.contentType
  userProperties : UserFits w.userProperties

structure ConnectFits (v : ConnectView) : Prop where
  keepAlive : v.keepAlive < 65536
  clientId : Short v.clientId
  username : OptShort v.username
  password : OptShort v.password
  sessionExpiry : OptLt 4294967296 v.sessionExpiry
  requestResponse : OptLt 256 v.requestResponse
  requestProblem : OptLt 256 v.requestProblem
  receiveMaximum : OptLt 65536 v.receiveMaximum
  topicAliasMaximum : OptLt 65536 v.topicAliasMaximum
  maximumPacketSize : OptLt 4294967296 v.maximumPacketSize
  willDelay : OptLt 4294967296 v.willDelay
  will : ∀ w, v.will = some w → WillFits w
  userProperties : UserFits v.userProperties
  authMethod : OptShort v.authMethod
  authData : OptShort v.authData

structure SubscribeFits (v : SubscribeView) : Prop where
  packetId : v.packetId < 65536
  filters : ∀ s ∈ v.subscriptions, Short s.topicFilter ∧ s.qos ≤ 2 ∧ s.retainHandling ≤ 2
  userProperties : UserFits v.userProperties

structure UnsubscribeFits (v : UnsubscribeView) : Prop where
  packetId : v.packetId < 65536
  filters : ∀ f ∈ v.topicFilters, Short f
  userProperties : UserFits v.userProperties

structure DisconnectFits (v : DisconnectView) : Prop where
  reasonCode : v.reasonCode < 256
  sessionExpiry : OptLt 4294967296 v.sessionExpiry
  reasonString : OptShort v.reasonString
  serverReference : OptShort v.serverReference
  userProperties : UserFits v.userProperties

structure PubackFits (v : PubackView) : Prop where
  packetId : v.packetId < 65536
  reasonCode : v.reasonCode < 256
  reasonString : OptShort v.reasonString
  userProperties : UserFits v.userProperties

def Fits : Outgoing → Prop
  | .connect v => ConnectFits v
  | .publish v => PublishFits v
  | .puback v => PubackFits v
  | .subscribe v => SubscribeFits v
  | .unsubscribe v => UnsubscribeFits v
  | .pingreq => True
  | .disconnect v => DisconnectFits v

/-! Expected properties, field by field. -/

def optNum (id : Nat) : Option Nat → List Property
  | none => []
  | some n => [⟨id, .num n⟩]

def optText (id : Nat) : Option Bytes → List Property
  | none => []
  | some s => [⟨id, .text s⟩]

def userProps (ps : List UserProperty) : List Property := ps.map fun p => ⟨38, .pair p.name p.value⟩

/-- The packet a user asks for with a view, in the terms of the MQTT 5 specification. -/
def meaning : Outgoing → Packet
  | .connect v => .connect
    { cleanStart := v.cleanStart, keepAlive := v.keepAlive, clientId := v.clientId,
      props := optNum 17 v.sessionExpiry ++ optNum 33 v.receiveMaximum ++ optNum 39 v.maximumPacketSize ++
        optNum 34 v.topicAliasMaximum ++ optNum 25 v.requestResponse ++ optNum 23 v.requestProblem ++
        optText 21 v.authMethod ++ optText 22 v.authData ++ userProps v.userProperties,
      will := v.will.map fun w =>
        { qos := w.qos, retain := w.retain, topic := w.topic, payload := w.payload,
          props := optNum 24 v.willDelay ++ optNum 1 w.payloadFormat ++ optNum 2 w.messageExpiry ++
            optText 3 w.contentType ++ optText 8 w.responseTopic ++ optText 9 w.correlationData ++
            userProps w.userProperties },
      username := v.username, password := v.password }
  | .publish v => .publish
    { dup := v.duplicate, qos := v.qos, retain := v.retain, topic := v.topic,
      packetId := if v.qos = 0 then none else some v.packetId,
      props := optNum 1 v.payloadFormat ++ optNum 2 v.messageExpiry ++ optNum 35 v.topicAlias ++
        optText 8 v.responseTopic ++ optText 9 v.correlationData ++
        v.subscriptionIdentifiers.map (fun i => ⟨11, .num i⟩) ++ optText 3 v.contentType ++
        userProps v.userProperties,
      payload := v.payload }
  | .puback v => .puback v.packetId v.reasonCode (optText 31 v.reasonString ++ userProps v.userProperties)
  | .subscribe v => .subscribe v.packetId (optNum 11 v.subscriptionIdentifier ++ userProps v.userProperties)
      (v.subscriptions.map fun s =>
        { filter := s.topicFilter, qos := s.qos, noLocal := s.noLocal, retainAsPublished := s.retainAsPublished,
          retainHandling := s.retainHandling })
  | .unsubscribe v => .unsubscribe v.packetId (userProps v.userProperties) v.topicFilters
  | .pingreq => .pingreq
  | .disconnect v => .disconnect v.reasonCode
      (optNum 17 v.sessionExpiry ++ optText 31 v.reasonString ++ optText 28 v.serverReference ++
        userProps v.userProperties)

end Mqtt.V5
