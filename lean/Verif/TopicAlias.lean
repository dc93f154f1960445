import Verif.Basic

/-!
Model of /repo/source/v5/mqtt5_topic_alias.c.

Simplification: allocation never fails. An array list of string pointers is a list of `Option Bytes`
(`none` is NULL). `aws_cache` with the LRU policy (aws-c-common) is a list of key and value in order from
least to most recently used, with a maximum. Aliases are numbers below 65536.
-/
namespace Mqtt.TopicAlias

/-! ## Inbound (13-110) -/

/-- `struct aws_mqtt5_inbound_topic_alias_resolver`. -/
abbrev Inbound := List (Option Bytes)

/-- `aws_mqtt5_inbound_topic_alias_resolver_init` (13-24). -/
def Inbound.init : Inbound := []

/-- `aws_mqtt5_inbound_topic_alias_resolver_reset` (45-63). -/
def Inbound.reset (cacheSize : Nat) : Inbound := List.replicate cacheSize none

/-- `aws_mqtt5_inbound_topic_alias_resolver_resolve_alias` (65-85); `none` is an error. -/
def Inbound.resolve (r : Inbound) (alias : Nat) : Option Bytes :=
  if alias > r.length ∨ alias = 0 then none                 -- 71
  else r[alias - 1]?.join                                   -- 75-84

/-- `aws_mqtt5_inbound_topic_alias_resolver_register_alias` (87-110); `none` is an error. -/
def Inbound.register (r : Inbound) (alias : Nat) (topic : Bytes) : Option Inbound :=
  if alias > r.length ∨ alias = 0 then none                 -- 93
  else some (r.set (alias - 1) (some topic))                -- 102-107

/-! ## The LRU cache of aws-c-common, as used here -/

/-- `aws_cache_find`: the value, and the cache with that element made most recently used. -/
def cacheFind (c : List (Bytes × Nat)) (t : Bytes) : Option (Nat × List (Bytes × Nat)) :=
  match c.find? (fun e => e.1 = t) with
  | none => none
  | some e => some (e.2, c.filter (fun x => x.1 ≠ t) ++ [e])

/-- `aws_cache_remove`. -/
def cacheRemove (c : List (Bytes × Nat)) (t : Bytes) : List (Bytes × Nat) := c.filter fun x => x.1 ≠ t

/-- `aws_cache_put`: replaces the key's element; above the maximum the least recently used one goes. -/
def cachePut (max : Nat) (c : List (Bytes × Nat)) (t : Bytes) (a : Nat) : List (Bytes × Nat) :=
  let c := cacheRemove c t ++ [(t, a)]
  if c.length > max then c.drop 1 else c

/-- `aws_lru_cache_use_lru_element`: the least recently used element, made most recently used. -/
def cacheUseLru : List (Bytes × Nat) → Option ((Bytes × Nat) × List (Bytes × Nat))
  | [] => none
  | e :: c => some (e, c ++ [e])

/-! ## Outbound -/

/-- `enum aws_mqtt5_client_outbound_topic_alias_behavior_type` (mqtt5_client.h) after
`..._to_non_default` (mqtt5_utils.c:311-319), which turns the default into `disabled`. -/
inductive Behavior where
  | manual | lru | disabled
deriving DecidableEq, Repr

/-- `struct aws_mqtt5_outbound_topic_alias_resolver` and its variants (124-129, 253-257, 386-391). The
cache pointer of the LRU variant is NULL exactly when `cache` is `none`. -/
inductive Outbound where
  | disabled
  | manual (aliases : List (Option Bytes))
  | lru (cache : Option (List (Bytes × Nat))) (max : Nat)
deriving DecidableEq, Repr

/-- `aws_mqtt5_outbound_topic_alias_resolver_new` (138-155), with 234-243, 361-373, 570-580. -/
def Outbound.new : Behavior → Outbound
  | .manual => .manual []
  | .lru => .lru none 0
  | .disabled => .disabled

/-- `aws_mqtt5_outbound_topic_alias_resolver_reset` (165-174), with 201-208, 283-297, 454-477. -/
def Outbound.reset (max : Nat) : Outbound → Outbound
  | .disabled => .disabled
  | .manual _ => .manual (List.replicate max none)
  | .lru _ _ => .lru (if max > 0 then some [] else none) max

/-- The manual variant (299-353); `topicAlias` is the alias the user put on the publish. -/
def resolveManual (aliases : List (Option Bytes)) (topic : Bytes) (topicAlias : Option Nat) :
    Option (Outbound × Nat × Bytes) :=
  match topicAlias with
  | none => some (.manual aliases, 0, topic)                                       -- 305-311
  | some a =>
    if a = 0 then none                                                             -- 314
    else if a - 1 ≥ aliases.length then none                                       -- 321
    else if aliases[a - 1]?.join = some topic then some (.manual aliases, a, [])   -- 332-340
    else some (.manual (aliases.set (a - 1) (some topic)), a, topic)               -- 342-350

/-- The LRU variant on a cache that is not NULL (493-561). -/
def resolveLru (cache : List (Bytes × Nat)) (max : Nat) (topic : Bytes) : Option (Outbound × Nat × Bytes) :=
  match cacheFind cache topic with
  | some (a, cache) => some (.lru (some cache) max, a, [])                         -- 501-510
  | none =>
    if cache.length = max then                                                     -- 515
      match cacheUseLru cache with
      | none => none                                                               -- NULL dereference, 524
      | some (e, cache) =>
        some (.lru (some (cachePut max (cacheRemove cache e.1) topic e.2)) max, e.2, topic)   -- 524-532, 553
    else
      let a := (cache.length + 1) % 65536                                          -- 540
      some (.lru (some (cachePut max cache topic a)) max, a, topic)

/-- `aws_mqtt5_outbound_topic_alias_resolver_resolve_outbound_publish` (176-186): the new resolver, the
alias (0 for none) and the topic to send; `none` is an error. -/
def Outbound.resolve (r : Outbound) (topic : Bytes) (topicAlias : Option Nat) : Option (Outbound × Nat × Bytes) :=
  match r with
  | .disabled => if topic.length = 0 then none else some (.disabled, 0, topic)     -- 217-224
  | .manual aliases => resolveManual aliases topic topicAlias
  | .lru cache max =>
    match cache with
    | none => some (.lru none max, 0, topic)                                       -- 487-491
    | some c => if max = 0 then some (.lru (some c) max, 0, topic) else resolveLru c max topic

/-- The start of `s_aws_mqtt5_encoder_begin_publish` (mqtt5_encoder.c:776-823): the topic and the topic
alias property put on the wire. -/
inductive Sent where
  | refused
  | abort
  | ok (r : Outbound) (topic : Bytes) (alias : Option Nat)
deriving DecidableEq, Repr

def beginPublish (r : Outbound) (topic : Bytes) (topicAlias : Option Nat) : Sent :=
  match r.resolve topic topicAlias with
  | none => .refused                                                               -- 787-799
  | some (r, a, t) =>
    if a ≠ 0 then .ok r t (some a)                                                 -- 802-814
    else if t.length > 0 then .ok r t none                                         -- 816-821
    else .abort

end Mqtt.TopicAlias
