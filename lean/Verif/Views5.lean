import Verif.Basic

/-!
MQTT 5 packet views (include/aws/mqtt/v5/mqtt5_types.h:211-503).

A pointer to an optional field is an `Option`; a counted array is a list.  Enumerations are natural
numbers (their C type is an `int`-sized enum), booleans are `Bool`.
-/
namespace Mqtt.V5

/-- `struct aws_mqtt5_user_property`. -/
structure UserProperty where
  name : Bytes
  value : Bytes
deriving DecidableEq, Repr

/-- `struct aws_mqtt5_packet_publish_view` (346-375). `packetId` and `topicAlias` are `uint16_t`,
`messageExpiry` and the subscription identifiers `uint32_t`. -/
structure PublishView where
  payload : Bytes := []
  packetId : Nat := 0
  qos : Nat := 0
  duplicate : Bool := false
  retain : Bool := false
  topic : Bytes := []
  payloadFormat : Option Nat := none
  messageExpiry : Option Nat := none
  topicAlias : Option Nat := none
  responseTopic : Option Bytes := none
  correlationData : Option Bytes := none
  subscriptionIdentifiers : List Nat := []
  contentType : Option Bytes := none
  userProperties : List UserProperty := []
deriving DecidableEq, Repr

/-- `struct aws_mqtt5_packet_connect_view` (382-409). -/
structure ConnectView where
  keepAlive : Nat := 0
  clientId : Bytes := []
  username : Option Bytes := none
  password : Option Bytes := none
  cleanStart : Bool := false
  sessionExpiry : Option Nat := none
  requestResponse : Option Nat := none
  requestProblem : Option Nat := none
  receiveMaximum : Option Nat := none
  topicAliasMaximum : Option Nat := none
  maximumPacketSize : Option Nat := none
  willDelay : Option Nat := none
  will : Option PublishView := none
  userProperties : List UserProperty := []
  authMethod : Option Bytes := none
  authData : Option Bytes := none
deriving DecidableEq, Repr

/-- `struct aws_mqtt5_subscription_view` (265-290). -/
structure SubscriptionView where
  topicFilter : Bytes
  qos : Nat := 0
  noLocal : Bool := false
  retainAsPublished : Bool := false
  retainHandling : Nat := 0
deriving DecidableEq, Repr

/-- `struct aws_mqtt5_packet_subscribe_view` (313-323). -/
structure SubscribeView where
  packetId : Nat := 0
  subscriptions : List SubscriptionView := []
  subscriptionIdentifier : Option Nat := none
  userProperties : List UserProperty := []
deriving DecidableEq, Repr

/-- `struct aws_mqtt5_packet_unsubscribe_view` (330-338). -/
structure UnsubscribeView where
  packetId : Nat := 0
  topicFilters : List Bytes := []
  userProperties : List UserProperty := []
deriving DecidableEq, Repr

/-- `struct aws_mqtt5_packet_disconnect_view` (297-306). -/
structure DisconnectView where
  reasonCode : Nat := 0
  sessionExpiry : Option Nat := none
  reasonString : Option Bytes := none
  userProperties : List UserProperty := []
  serverReference : Option Bytes := none
deriving DecidableEq, Repr

/-- `struct aws_mqtt5_packet_connack_view` (416-441). -/
structure ConnackView where
  sessionPresent : Bool := false
  reasonCode : Nat := 0
  sessionExpiry : Option Nat := none
  receiveMaximum : Option Nat := none
  maximumQos : Option Nat := none
  retainAvailable : Option Bool := none
  maximumPacketSize : Option Nat := none
  assignedClientId : Option Bytes := none
  topicAliasMaximum : Option Nat := none
  reasonString : Option Bytes := none
  userProperties : List UserProperty := []
  wildcardSubscriptions : Option Bool := none
  subscriptionIdentifiers : Option Bool := none
  sharedSubscriptions : Option Bool := none
  serverKeepAlive : Option Nat := none
  responseInformation : Option Bytes := none
  serverReference : Option Bytes := none
  authMethod : Option Bytes := none
  authData : Option Bytes := none
deriving DecidableEq, Repr

/-- `struct aws_mqtt5_packet_puback_view` (448-456). -/
structure PubackView where
  packetId : Nat := 0
  reasonCode : Nat := 0
  reasonString : Option Bytes := none
  userProperties : List UserProperty := []
deriving DecidableEq, Repr

/-- `struct aws_mqtt5_packet_suback_view` / `aws_mqtt5_packet_unsuback_view` (476-503). -/
structure SubackView where
  packetId : Nat := 0
  reasonString : Option Bytes := none
  userProperties : List UserProperty := []
  reasonCodes : List Nat := []
deriving DecidableEq, Repr

end Mqtt.V5
