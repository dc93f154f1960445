import Verif.Text

/-!
Topic helpers of /repo/source/v5/mqtt5_utils.c: shared subscriptions and AWS IoT Core limits (427-569).
`aws_byte_cursor_next_split` is `split`, `aws_byte_cursor_eq_ignore_case` compares ASCII letters without
case, both from aws-c-common.
-/
namespace Mqtt.V5

/-- `aws_byte_cursor_eq_ignore_case`: the ASCII lower case of a byte. -/
def lower (b : UInt8) : UInt8 := if 65 ≤ b ∧ b ≤ 90 then b + 32 else b

def eqIgnoreCase (a b : Bytes) : Bool := a.map lower == b.map lower

/-- `"$share"` (470). -/
def sharePrefix : Bytes := [36, 115, 104, 97, 114, 101]

/-- `"$aws/rules/"` (427). -/
def rulesPrefix : Bytes := [36, 97, 119, 115, 47, 114, 117, 108, 101, 115, 47]

/-- `s_aws_mqtt5_topic_skip_shared_prefix` (476-521). -/
def skipShared (t : Bytes) : Bytes :=
  match split 47 t with
  | first :: second :: _ =>
    if !eqIgnoreCase sharePrefix first then t                                      -- 489-491
    else if second.length = 0 ∨ !second.all (fun b => b != 43 && b != 35) then t   -- 502-505
    else
      let remaining := t.length - (first.length + 1 + second.length)               -- 511-512
      if remaining = 0 then t                                                      -- 513-515
      else t.drop (t.length - remaining + 1)                                       -- 517
  | _ => t                                                                         -- 480-482, 498-500

/-- `s_aws_mqtt5_topic_skip_aws_iot_rules_prefix` (429-468). -/
def skipRules (t : Bytes) : Bytes :=
  if t.length < rulesPrefix.length then t                                          -- 437-439
  else if !eqIgnoreCase rulesPrefix (t.take rulesPrefix.length) then t             -- 445-447
  else
    let u := t.drop rulesPrefix.length                                             -- 449
    if u.length = 0 then t                                                         -- 450-452
    else
      let name := (split 47 u).headD []                                            -- 457
      if u.length < name.length + 1 then t                                         -- 461-463
      else u.drop (name.length + 1)                                                -- 465

/-- `aws_mqtt5_topic_skip_aws_iot_core_uncounted_prefix` (523-528). -/
def skipUncounted (t : Bytes) : Bytes := skipRules (skipShared t)

/-- `aws_mqtt5_topic_get_segment_count` (530-541). -/
def segmentCount (t : Bytes) : Nat := (split 47 t).length

/-- `aws_mqtt_is_valid_topic_filter_for_iot_core` (543-546). -/
def validFilterForIotCore (t : Bytes) : Bool := segmentCount (skipUncounted t) ≤ 8

/-- `aws_mqtt_is_valid_topic_for_iot_core` (548-555). -/
def validTopicForIotCore (t : Bytes) : Bool :=
  if segmentCount (skipUncounted t) > 8 then false else (skipUncounted t).length ≤ 256

/-- `aws_mqtt_is_topic_filter_shared_subscription` (558-569). -/
def isShared (t : Bytes) : Bool :=
  if (skipShared t).length = t.length then false else isValidTopicFilter (skipShared t)

end Mqtt.V5
