import Verif.Text
import Verif.Map

/-!
Model of /repo/source/mqtt_subscription_set.c, the subscription table of a 3.1.1 connection running over
an MQTT5 client (mqtt5_to_mqtt3_adapter.c).

Simplification: as in `TopicTree.lean` a node is identified by its path of levels from the root, and the
nested `children` tables become one map from paths to nodes. Every node owns a copy of its segment
(209), so no string is shared. Allocation never fails. Handlers and user data are numbers, `none` is NULL.
The packet options of a subscription (qos, no local, ...) are one number, `options`.
-/
namespace Mqtt.SubscriptionSet

abbrev Path := List Bytes

/-- `struct aws_mqtt_subscription_set_subscription_options` (mqtt_subscription_set.h:18-34) without the
filter. -/
structure Entry where
  options : Nat
  onPublish : Option Nat
  cleanup : Bool
  userdata : Option Nat
deriving DecidableEq, Repr

/-- `struct aws_mqtt_subscription_set_topic_tree_node` (mqtt_subscription_set.h:72-100). -/
structure Node where
  ref : Nat
  isSub : Bool
  onPublish : Option Nat
  cleanup : Bool
  userdata : Option Nat
deriving DecidableEq, Repr

/-- `struct aws_mqtt_subscription_set`, and the arguments passed to cleanup functions so far. -/
structure SubSet where
  nodes : AMap Path Node
  subscriptions : AMap Bytes Entry
  cleaned : List (Option Nat)
deriving DecidableEq, Repr

/-- `s_aws_mqtt_subscription_set_node_new` (43-63). -/
def newNode : Node := { ref := 1, isSub := false, onPublish := none, cleanup := false, userdata := none }

/-- `aws_mqtt_subscription_set_new` (64-82). -/
def SubSet.new : SubSet := { nodes := [([], newNode)], subscriptions := [], cleaned := [] }

/-- What destroying a node passes to its cleanup function (90-92). -/
def nodeCleanup (n : Node) : List (Option Nat) := if n.cleanup ∧ n.userdata ≠ none then [n.userdata] else []

/-- `s_aws_mqtt_subscription_set_node_destroy_tree` (99-109): the node at `p` and all below it. The order
of the cleanup calls is that of the hash tables; the model's order carries no meaning. -/
def destroyTree (s : SubSet) (p : Path) : SubSet :=
  { s with nodes := s.nodes.filter fun e => ¬ p.isPrefixOf e.1
           cleaned := s.cleaned ++ (s.nodes.filter fun e => p.isPrefixOf e.1).flatMap fun e => nodeCleanup e.2 }

/-- `aws_mqtt_subscription_set_destroy` (119-129). -/
def destroy (s : SubSet) : SubSet := { destroyTree s [] with subscriptions := [] }

/-- `s_aws_mqtt_subscription_set_get_existing_subscription_node` (131-155). -/
def existing (nodes : AMap Path Node) (cur : Path) : List Bytes → Option Path
  | [] =>
    match nodes.get cur with
    | none => none
    | some n => if n.isSub then some cur else none                                 -- 150-154
  | l :: ls => if nodes.get (cur ++ [l]) = none then none else existing nodes (cur ++ [l]) ls

/-- `aws_mqtt_subscription_set_is_subscribed` (157-165). -/
def isSubscribed (s : SubSet) (f : Bytes) : Bool := (s.subscriptions.get f).isSome

/-- `aws_mqtt_subscription_set_is_in_topic_tree` (167-174). -/
def isInTopicTree (s : SubSet) (f : Bytes) : Bool := (existing s.nodes [] (split 47 f)).isSome

/-- One more reference to a node (216-217), or a new node (205-214). -/
def bump : Option Node → Node
  | none => newNode
  | some n => { n with ref := n.ref + 1 }

/-- The loop of `s_aws_mqtt_subscription_set_create_or_reference_topic_filter_path` (198-219). -/
def reference (nodes : AMap Path Node) (cur : Path) : List Bytes → AMap Path Node
  | [] => nodes
  | l :: ls => reference (nodes.set (cur ++ [l]) (bump (nodes.get (cur ++ [l])))) (cur ++ [l]) ls

/-- `aws_mqtt_subscription_set_add_subscription` (224-254); `none` is the failed assertion. -/
def add (s : SubSet) (f : Bytes) (e : Entry) : Option SubSet :=
  if ¬ isValidTopicFilter f then none                                              -- 228
  else
    let subs := (s.subscriptions.del f).set f e                                    -- 230-234
    let levels := split 47 f
    let nodes := if existing s.nodes [] levels = none then                         -- 236-242
        reference (s.nodes.set [] (bump (s.nodes.get []))) [] levels
      else s.nodes
    match nodes.get levels with
    | none => none                                                                 -- never
    | some n =>
      some { nodes := nodes.set levels { n with isSub := true, onPublish := e.onPublish       -- 249-253
                                                cleanup := e.cleanup, userdata := e.userdata }
             subscriptions := subs
             cleaned := if n.cleanup then s.cleaned ++ [n.userdata] else s.cleaned }          -- 244-247

/-- The loop and the end of `aws_mqtt_subscription_set_remove_subscription` (266-298). `none` is a null
pointer dereference (282). -/
def unreference (s : SubSet) (cur : Path) : List Bytes → Option SubSet
  | [] =>
    match s.nodes.get cur with
    | none => none                                                                 -- never
    | some n =>
      if n.ref - 1 = 0 then some (destroyTree s cur)                               -- 285-289
      else some { s with nodes := s.nodes.set cur                                  -- 291-297
                           { n with ref := n.ref - 1, cleanup := false, onPublish := none, isSub := false }
                         cleaned := if n.cleanup then s.cleaned ++ [n.userdata] else s.cleaned }
  | l :: ls =>
    match s.nodes.get cur with
    | none => none                                                                 -- never
    | some n =>
      if n.ref - 1 = 0 then some (destroyTree s cur)                               -- 271-276
      else if s.nodes.get (cur ++ [l]) = none then none                            -- 278-282
      else unreference { s with nodes := s.nodes.set cur { n with ref := n.ref - 1 } } (cur ++ [l]) ls

/-- `aws_mqtt_subscription_set_remove_subscription` (256-298). -/
def remove (s : SubSet) (f : Bytes) : Option SubSet :=
  let s := { s with subscriptions := s.subscriptions.del f }                       -- 260
  if isInTopicTree s f = false then some s                                         -- 262-264
  else unreference s [] (split 47 f)

/-- `s_invoke_on_publish_received` (339-354): the call made on the node at `p`. -/
def invoke (nodes : AMap Path Node) (p : Path) : List (Path × Nat × Option Nat) :=
  match nodes.get p with
  | none => []
  | some n =>
    match n.onPublish with
    | none => []
    | some cb => if n.isSub then [(p, cb, n.userdata)] else []

/-- `s_add_subscription_set_path_continuation` (305-319): a child is pushed if it exists. -/
def push (nodes : AMap Path Node) (p : Path) (rest : List Bytes) : List (Path × List Bytes) :=
  if nodes.get p = none then [] else [(p, rest)]

/-- The loop of `aws_mqtt_subscription_set_on_publish_received` (374-403). The list's head is the top of
the stack; an entry is a node and the levels not yet split off. -/
def publishLoop (nodes : AMap Path Node) : List (Path × List Bytes) → List (Path × Nat × Option Nat)
  | [] => []
  | (p, []) :: stack =>
    invoke nodes (p ++ [[35]]) ++ (invoke nodes p ++ publishLoop nodes stack)      -- 386-393
  | (p, l :: ls) :: stack =>
    invoke nodes (p ++ [[35]]) ++                                                  -- 386-388
      publishLoop nodes (push nodes (p ++ [l]) ls ++ (push nodes (p ++ [[43]]) ls ++ stack))   -- 396-402
termination_by st => (st.map fun e => 3 ^ (e.2.length + 1)).sum
decreasing_by
  · simp only [List.map_cons, List.sum_cons]
    exact Nat.lt_add_of_pos_left (Nat.pow_pos (by decide))
  · have h3 : 0 < 3 ^ (ls.length + 1) := Nat.pow_pos (by decide)
    have e : 3 ^ (ls.length + 1 + 1) = 3 ^ (ls.length + 1) * 3 := Nat.pow_succ ..
    simp only [List.map_cons, List.sum_cons, List.map_append, List.sum_append, List.length_cons, e]
    have hp : ∀ q, ((push nodes q ls).map fun e => 3 ^ (e.2.length + 1)).sum ≤ 3 ^ (ls.length + 1) := by
      intro q; unfold push; split <;> simp
    have h1 := hp (p ++ [l])
    have h2 := hp (p ++ [[43]])
    omega

/-- `aws_mqtt_subscription_set_on_publish_received` (356-406): node, handler and user data of each call. -/
def publish (s : SubSet) (topic : Bytes) : List (Path × Nat × Option Nat) :=
  publishLoop s.nodes [([], split 47 topic)]

/-- `aws_mqtt_subscription_set_get_subscriptions` (417-431); the order is that of the hash table. -/
def getSubscriptions (s : SubSet) : List (Bytes × Entry) := s.subscriptions

end Mqtt.SubscriptionSet
