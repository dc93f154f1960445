import Verif.Encoder5
import Verif.TopicUtils5

/-!
Validation of MQTT 5 options at submission and what the operation stores
(/repo/source/v5/mqtt5_options_storage.c). A validator is `true` when the C function succeeds; which error
is raised is not modelled. NULL options and a NULL property array with a non-zero count are not
representable here (both are refused, 335, 1287, 1610, 2391, 2756, 139-149).
-/
namespace Mqtt.V5

/-- The body of the loop of `s_aws_mqtt5_user_property_set_validate` (163-198). -/
def validateUserProperty (p : UserProperty) : Bool :=
  if p.name.length > 65535 then false
  else if !validUtf8Text p.name then false
  else if p.value.length > 65535 then false
  else if !validUtf8Text p.value then false
  else true

/-- `s_aws_mqtt5_user_property_set_validate` (134-203). -/
def validateUserProperties (ps : List UserProperty) : Bool :=
  if ps.length > 1024 then false                                                   -- 152-161
  else ps.all validateUserProperty

/-- `aws_mqtt5_disconnect_reason_code_to_c_string` (mqtt5_types.c:104-177): the codes it knows. -/
def disconnectReasonCodes : List Nat :=
  [0, 4, 128, 129, 130, 131, 135, 137, 139, 141, 142, 143, 144, 147, 148, 149, 150, 151, 152, 153, 154, 155,
   156, 157, 158, 159, 160, 161, 162]

/-- `aws_mqtt5_packet_disconnect_view_validate` (1285-1339). -/
def validateDisconnect (v : DisconnectView) : Bool :=
  if !disconnectReasonCodes.contains v.reasonCode then false                       -- 1292-1301
  else if v.reasonString.any (fun s => s.length > 65535) then false                -- 1304-1310
  else if v.reasonString.any (fun s => !validUtf8Text s) then false                -- 1312-1318
  else if v.serverReference.isSome then false                                      -- 1321-1328
  else validateUserProperties v.userProperties                                     -- 1330-1336

/-- `aws_mqtt5_packet_publish_view_validate` (1608-1765). -/
def validatePublish (v : PublishView) : Bool :=
  if v.qos > 2 then false                                                          -- 1615-1622
  else if v.qos = 0 ∧ v.duplicate then false                                       -- 1625-1631
  else if v.qos = 0 ∧ v.packetId ≠ 0 then false                                    -- 1632-1638
  else if v.topic.length = 0 then false                                            -- 1642-1645
  else if !validUtf8Text v.topic then false                                        -- 1646-1649
  else if !isValidTopic v.topic then false                                         -- 1650-1657
  else if v.topicAlias = some 0 then false                                         -- 1659-1667
  else if v.payloadFormat.any (fun f => f > 1) then false                          -- 1670-1677
  else if v.payloadFormat = some 1 ∧ !validUtf8Text v.payload then false           -- 1680-1689
  else if v.responseTopic.any (fun s => s.length ≥ 65535) then false               -- 1693-1699
  else if v.responseTopic.any (fun s => !validUtf8Text s) then false               -- 1701-1707
  else if v.responseTopic.any (fun s => !isValidTopic s) then false                -- 1709-1715
  else if v.correlationData.any (fun s => s.length ≥ 65535) then false             -- 1718-1726
  else if v.subscriptionIdentifiers.length ≠ 0 then false                          -- 1732-1736
  else if v.contentType.any (fun s => s.length ≥ 65535) then false                 -- 1739-1745
  else if v.contentType.any (fun s => !validUtf8Text s) then false                 -- 1747-1753
  else validateUserProperties v.userProperties                                     -- 1756-1762

/-- `s_aws_mqtt5_validate_subscription` (2690-2752). -/
def validateSubscription (s : SubscriptionView) : Bool :=
  if !validUtf8Text s.topicFilter then false                                       -- 2694-2701
  else if !isValidTopicFilter s.topicFilter then false                             -- 2703-2710
  else if s.topicFilter.length > 65535 then false                                  -- 2712-2718
  else if s.qos > 1 then false                                                     -- 2720-2727
  else if s.retainHandling > 2 then false                                          -- 2729-2737
  else if s.noLocal && isShared s.topicFilter then false                           -- 2740-2749
  else true

/-- `aws_mqtt5_packet_subscribe_view_validate` (2754-2808). -/
def validateSubscribe (v : SubscribeView) : Bool :=
  if v.subscriptions.length = 0 then false                                         -- 2761-2767
  else if v.subscriptions.length > 1024 then false                                 -- 2769-2775
  else if !v.subscriptions.all validateSubscription then false                     -- 2777-2786
  else if v.subscriptionIdentifier.any (fun i => i > 268435455) then false         -- 2788-2797
  else validateUserProperties v.userProperties                                     -- 2799-2805

/-- `aws_mqtt5_packet_unsubscribe_view_validate` (2389-2442). -/
def validateUnsubscribe (v : UnsubscribeView) : Bool :=
  if v.topicFilters.length = 0 then false                                          -- 2396-2402
  else if v.topicFilters.length > 1024 then false                                  -- 2404-2411
  else if !v.topicFilters.all (fun f => validUtf8Text f && isValidTopicFilter f) then false   -- 2413-2431
  else validateUserProperties v.userProperties                                     -- 2433-2439

/-- `aws_mqtt5_packet_connect_view_validate` (333-461). -/
def validateConnect (v : ConnectView) : Bool :=
  if v.clientId.length > 65535 then false                                          -- 339-343
  else if !validUtf8Text v.clientId then false                                     -- 345-351
  else if v.username.any (fun s => s.length > 65535) then false                    -- 353-360
  else if v.username.any (fun s => !validUtf8Text s) then false                    -- 362-368
  else if v.password.any (fun s => s.length > 65535) then false                    -- 371-379
  else if v.receiveMaximum = some 0 then false                                     -- 381-389
  else if v.maximumPacketSize = some 0 then false                                  -- 391-400
  else if v.will.any (fun w => !validatePublish w) then false                      -- 402-410
  else if v.will.any (fun w => w.payload.length > 65535) then false                -- 412-419
  else if v.requestProblem.any (fun n => n > 1) then false                         -- 422-430
  else if v.requestResponse.any (fun n => n > 1) then false                        -- 432-440
  else if !validateUserProperties v.userProperties then false                      -- 442-448
  else if v.authMethod.isSome ∨ v.authData.isSome then false                       -- 450-458
  else true

/-! ### Operations: what passes the constructor is stored -/

/-- `aws_mqtt5_operation_publish_new` (2119-2171): the stored view is a copy (1949-2044). -/
def newPublish (v : PublishView) : Option PublishView :=
  if !validatePublish v then none else if v.packetId ≠ 0 then none else some v

/-- `aws_mqtt5_operation_subscribe_new` (3022-3072), storage 2912-2950. -/
def newSubscribe (v : SubscribeView) : Option SubscribeView :=
  if !validateSubscribe v then none else if v.packetId ≠ 0 then none else some v

/-- `aws_mqtt5_operation_unsubscribe_new` (2632-2682), storage 2525-2560. -/
def newUnsubscribe (v : UnsubscribeView) : Option UnsubscribeView :=
  if !validateUnsubscribe v then none else if v.packetId ≠ 0 then none else some v

/-- `aws_mqtt5_operation_disconnect_new` (1558-1602), storage 1450-1501. -/
def newDisconnect (v : DisconnectView) : Option DisconnectView :=
  if !validateDisconnect v then none else some v

/-- `aws_mqtt5_operation_connect_new` (850-891) without SDK metrics, storage 682-824: an empty user name
is left out (704, mqtt_iot_metrics.c:666-670). -/
def newConnect (v : ConnectView) : Option ConnectView :=
  if !validateConnect v then none
  else some { v with username := if v.username.any (fun s => s.length > 0) then v.username else none }

end Mqtt.V5
