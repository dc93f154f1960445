import Verif.Text
import Verif.Map

/-!
Model of /repo/source/topic_tree.c, the subscription table of the 3.1.1 client.

Simplification: a node is identified by the list of levels on its way from the root, and the nested
`subtopics` hash tables become one map from such paths to node data. Looking up a level among the
children of a node is looking up the extended path. The strings the nodes refer to are kept apart:
`strings` holds every topic string ever allocated (its index is the pointer), `freed` the ones passed
to `aws_string_destroy`. A node's `topic` cursor is (string, offset); its length is that of the last
level. Map keys stand for the bytes the cursor had when the node was made, so the map goes on working
in the model after a string is freed; C11 is about whether that can happen.

Allocation never fails. Handlers are numbers; `userdata = none` is NULL, `cleanup` tells whether there
is a cleanup function.
-/
namespace Mqtt.TopicTree

abbrev Path := List Bytes

/-- The data of a subscription: callback (never NULL), cleanup, userdata, qos. -/
structure Sub where
  callback : Nat
  cleanup : Bool
  userdata : Option Nat
  qos : Nat
deriving DecidableEq, Repr

/-- `struct aws_mqtt_topic_node` (topic_tree.h:21-43); `sub = none` is `callback == NULL`. -/
structure Node where
  sub : Option Sub
  topicStr : Nat
  topicOff : Nat
  filterStr : Nat
  owns : Bool
deriving DecidableEq, Repr

/-- `struct aws_mqtt_topic_tree`, with the strings and the user data handed to cleanup functions. -/
structure Tree where
  nodes : AMap Path Node
  strings : List Bytes
  freed : List Nat
  cleaned : List Nat
deriving DecidableEq, Repr

/-- `aws_mqtt_topic_tree_init` (189-204). -/
def Tree.init : Tree := { nodes := [], strings := [], freed := [], cleaned := [] }

/-- `aws_hash_table_get_entry_count(&node->subtopics) != 0`. -/
def hasChild (nodes : AMap Path Node) (p : Path) : Bool :=
  nodes.any fun e => e.1 ≠ [] && e.1.dropLast = p

/-- What a cleanup call on this subscription receives, if the call is made (170-172, 348-351, 389-394). -/
def cleanupOf (s : Option Sub) : List Nat :=
  match s with
  | some { cleanup := true, userdata := some u, .. } => [u]
  | _ => []

inductive Mode where
  | add | update | remove
deriving DecidableEq, Repr

/-- `struct topic_tree_action` (25-49). `to_remove` is the list of prefixes of `node`. -/
structure Action where
  mode : Mode
  node : Path
  topic : Option (Nat × Nat) := none
  topicFilter : Option Nat := none
  sub : Option Sub := none
  lastFound : Path := []
  firstCreated : Path := []
deriving DecidableEq, Repr

/-- The loop of `aws_mqtt_topic_tree_transaction_insert` (618-661). `created` is `some (last_found,
first_created)` once a node was created, i.e. once the mode is ADD. Returns the nodes, `created`, and
the offset of `last_part`. -/
def insertLoop (str : Nat) (nodes : AMap Path Node) (cur : Path) (off lastOff : Nat)
    (created : Option (Path × Path)) : List Bytes → AMap Path Node × Option (Path × Path) × Nat
  | [] => (nodes, created, lastOff)
  | l :: ls =>
    match nodes.get (cur ++ [l]) with
    | none =>                                                                      -- 627-654
      insertLoop str (nodes.set (cur ++ [l])
          { sub := none, topicStr := str, topicOff := off, filterStr := str, owns := false })
        (cur ++ [l]) (off + l.length + 1) off
        (created.or (some (cur, cur ++ [l]))) ls
    | some _ => insertLoop str nodes (cur ++ [l]) (off + l.length + 1) off created ls  -- 655-660

/-- `node->owns_topic_filter` of the node at a path. -/
def ownsAt (nodes : AMap Path Node) (p : Path) : Bool :=
  match nodes.get p with
  | none => false
  | some n => n.owns

/-- `aws_mqtt_topic_tree_transaction_insert` (576-684). -/
def txInsert (t : Tree) (filter : Bytes) (s : Sub) : Tree × Action :=
  let str := t.strings.length                                                      -- 591
  let levels := split 47 filter
  let r := insertLoop str t.nodes [] 0 0 none levels
  let act : Action :=
    match r.2.1 with
    | none => { mode := .update, node := levels, sub := some s }                   -- 607
    | some (lf, fc) => { mode := .add, node := levels, sub := some s, lastFound := lf, firstCreated := fc }
  if ownsAt r.1 levels then                                                        -- 666-676
    ({ t with nodes := r.1, strings := t.strings ++ [filter], freed := str :: t.freed }, act)
  else                                                                             -- 677-681
    ({ t with nodes := r.1, strings := t.strings ++ [filter] },
     { act with topic := some (str, r.2.2), topicFilter := some str })

/-- `aws_mqtt_topic_tree_transaction_remove` (690-786): the action, unless the filter has no node. -/
def txRemove (t : Tree) (filter : Bytes) : Option Action :=
  match t.nodes.get (split 47 filter) with
  | none => none                                                                   -- 760-763, 776-785
  | some _ => some { mode := .remove, node := split 47 filter }                    -- 766

/-- ADD and UPDATE cases of `s_topic_tree_action_commit` (337-371). -/
def commitAdd (t : Tree) (a : Action) : Tree :=
  match t.nodes.get a.node with
  | none => t                                                                      -- never
  | some n =>
    let n1 := { n with sub := a.sub }                                              -- 354-357
    let n2 := match a.topic with                                                   -- 358-360
      | none => n1
      | some (s, o) => { n1 with topicStr := s, topicOff := o }
    let cleaned := t.cleaned ++ cleanupOf n.sub                                    -- 348-351
    match a.topicFilter with
    | none => { t with nodes := t.nodes.set a.node n2, cleaned := cleaned }
    | some s =>
      if n.owns then                                                               -- 362-364
        { t with nodes := t.nodes.set a.node n2, cleaned := cleaned, freed := s :: t.freed }
      else                                                                         -- 365-368
        { t with nodes := t.nodes.set a.node { n2 with filterStr := s, owns := true }, cleaned := cleaned }

/-- First loop of the REMOVE case (406-453), from the deepest node up. `i` is the loop variable, the
result is the nodes, the freed strings, and `nodes_left`. Nodes other than the deepest are destroyed
at once (434); `last` is `sub_parts_len`. -/
def pruneLoop (p : Path) (last : Nat) (nodes : AMap Path Node) (freed : List Nat) :
    Nat → AMap Path Node × List Nat × Nat
  | 0 => (nodes, freed, 0)
  | i + 1 =>
    match nodes.get (p.take (i + 1)) with
    | none => (nodes, freed, i + 1)                                                -- never
    | some n =>
      if n.sub = none ∧ hasChild nodes (p.take (i + 1)) = false then               -- 411
        pruneLoop p last (nodes.del (p.take (i + 1)))                              -- 426
          (if i + 1 ≠ last ∧ n.owns then n.filterStr :: freed else freed) i        -- 429-439
      else (nodes, freed, i + 1)                                                   -- 451

/-- `s_topic_node_string_finder` (302-329) started on the children of `parent`: it descends through
nodes that use the old string and stops at some node that does not. Which one depends on the hash
table's iteration order; these are the strings it can stop at. -/
def finderCandidates (nodes : AMap Path Node) (parent : Path) (old : Nat) : List Nat :=
  (nodes.filter fun e =>
    parent.isPrefixOf e.1 && e.1.length > parent.length && e.2.filterStr ≠ old &&
    ((List.range e.1.length).all fun k =>
      k ≤ parent.length || (match nodes.get (e.1.take k) with
        | some n => n.filterStr = old
        | none => false))).map (·.2.filterStr)

/-- Choice made by the finder; `old` when it finds nothing. -/
def pickString (pick : List Nat → Nat) (cands : List Nat) (old : Nat) : Nat :=
  if cands = [] then old else pick cands

/-- Second loop of the REMOVE case (472-512). `newStr` is `new_topic_filter`, `off` the offset before
this round, `stolen` whether current's string was destroyed here (504-505). -/
def fixupLoop (pick : List Nat → Nat) (p : Path) (old : Nat) (nodes : AMap Path Node) (freed : List Nat)
    (off : Nat) (newStr : Option Nat) (stolen : Bool) : Nat → AMap Path Node × List Nat × Bool
  | 0 => (nodes, freed, stolen)
  | i + 1 =>
    match nodes.get (p.take (i + 1)) with
    | none => (nodes, freed, stolen)                                               -- never
    | some n =>
      let off := off - ((p.getD i []).length + 1)                                  -- 477
      if n.filterStr = old then                                                    -- 479
        match newStr with
        | some s =>
          fixupLoop pick p old (nodes.set (p.take (i + 1)) { n with filterStr := s, topicStr := s, topicOff := off })
            freed off (some s) stolen i
        | none =>
          let s := pickString pick (finderCandidates nodes (p.take (i + 1)) old) old   -- 489-496
          fixupLoop pick p old (nodes.set (p.take (i + 1)) { n with filterStr := s, topicStr := s, topicOff := off })
            (old :: freed) off (some s) true i                                     -- 504-510
      else fixupLoop pick p old nodes freed off newStr stolen i

/-- REMOVE case of `s_topic_tree_action_commit` (373-523). -/
def commitRemove (pick : List Nat → Nat) (t : Tree) (a : Action) : Tree :=
  match t.nodes.get a.node with
  | none => t                                                                      -- never for one-action transactions
  | some current =>
    let cleaned := t.cleaned ++ cleanupOf current.sub                              -- 389-394
    let nodes := t.nodes.set a.node { current with sub := none }                   -- 395-397
    let len := a.node.length
    let (nodes, freed, left) := pruneLoop a.node len nodes t.freed len             -- 406-453
    if left < len then                                                             -- destroy_current
      let (nodes, freed, stolen) :=
        if left > 0 then                                                           -- 457
          match nodes.get (a.node.take left) with
          | none => (nodes, freed, false)                                          -- never
          | some parent =>
            fixupLoop pick a.node current.filterStr nodes freed
              (parent.topicOff + (a.node.getD (left - 1) []).length + 1) none false left   -- 468-512
        else (nodes, freed, false)
      let freed := if current.owns && !stolen then current.filterStr :: freed else freed   -- 516-518
      { t with nodes := nodes, freed := freed, cleaned := cleaned }
    else { t with nodes := nodes, freed := freed, cleaned := cleaned }

/-- `s_topic_tree_action_commit` (331-527). -/
def commitAction (pick : List Nat → Nat) (t : Tree) (a : Action) : Tree :=
  match a.mode with
  | .add | .update => commitAdd t a
  | .remove => commitRemove pick t a

/-- `aws_mqtt_topic_tree_transaction_commit` (792-803). -/
def commit (pick : List Nat → Nat) (t : Tree) (as : List Action) : Tree := as.foldl (commitAction pick) t

/-- Strings freed when the subtree at `p` is destroyed (163-187). -/
def ownedBelow (nodes : AMap Path Node) (p : Path) : List Nat :=
  (nodes.filter fun e => p.isPrefixOf e.1 && e.2.owns).map (·.2.filterStr)

/-- User data cleaned when the subtree at `p` is destroyed (170-172). -/
def cleanedBelow (nodes : AMap Path Node) (p : Path) : List Nat :=
  (nodes.filter fun e => p.isPrefixOf e.1).flatMap fun e => cleanupOf e.2.sub

/-- `s_topic_tree_action_roll_back` (533-570). -/
def rollbackAction (t : Tree) (a : Action) : Tree :=
  match a.mode with
  | .add =>
    { t with
      nodes := t.nodes.filter fun e => !(a.firstCreated.isPrefixOf e.1)            -- 546-548
      cleaned := t.cleaned ++ cleanedBelow t.nodes a.firstCreated
      freed := (match a.topicFilter with | some s => [s] | none => []) ++ ownedBelow t.nodes a.firstCreated ++ t.freed }
  | .update | .remove => t                                                         -- 556-566

/-- `aws_mqtt_topic_tree_transaction_roll_back` (809-820): last action first. -/
def rollback (t : Tree) (as : List Action) : Tree := as.reverse.foldl rollbackAction t

/-- Successive `aws_mqtt_topic_tree_transaction_insert` calls of one transaction (client.c:2091-2146). -/
def txInserts (t : Tree) : List (Bytes × Sub) → Tree × List Action
  | [] => (t, [])
  | (f, s) :: rest =>
    let r := txInsert t f s
    let r2 := txInserts r.1 rest
    (r2.1, r.2 :: r2.2)

/-- SUBSCRIBE of the 3.1.1 client: insert all, then commit (client.c:2087-2178); with a single filter
this is also `aws_mqtt_topic_tree_insert` (822-842). -/
def subscribe (pick : List Nat → Nat) (t : Tree) (fs : List (Bytes × Sub)) : Tree :=
  let r := txInserts t fs
  commit pick r.1 r.2

/-- UNSUBSCRIBE: `aws_mqtt_topic_tree_remove` (844-861), also client.c:2880-2962. -/
def unsubscribe (pick : List Nat → Nat) (t : Tree) (f : Bytes) : Tree :=
  match txRemove t f with
  | none => t
  | some a => commit pick t [a]

/-- A transaction step. -/
inductive TxStep where
  | insert (f : Bytes) (s : Sub)
  | remove (f : Bytes)
deriving DecidableEq, Repr

/-- Transaction steps up to the point where the caller commits or rolls back. -/
def txSteps (t : Tree) : List TxStep → Tree × List Action
  | [] => (t, [])
  | .insert f s :: rest =>
    let r := txInsert t f s
    let r2 := txSteps r.1 rest
    (r2.1, r.2 :: r2.2)
  | .remove f :: rest =>
    let r2 := txSteps t rest
    (r2.1, (match txRemove t f with | none => [] | some a => [a]) ++ r2.2)

/-- A transaction that is rolled back (client.c:2183-2191, 2968-2977). -/
def aborted (t : Tree) (steps : List TxStep) : Tree :=
  let r := txSteps t steps
  rollback r.1 r.2

/-- `aws_mqtt_topic_tree_clean_up` (210-221). -/
def cleanUp (t : Tree) : Tree :=
  { t with
    nodes := []
    cleaned := t.cleaned ++ cleanedBelow t.nodes []
    freed := ownedBelow t.nodes [] ++ t.freed }

/-- Calling the subscription of the `#` child (891-902); `none` when its callback is NULL. -/
def hashCalls (nodes : AMap Path Node) (cur : Path) : Option (List (Path × Sub)) :=
  match nodes.get (cur ++ [[35]]) with
  | none => some []
  | some n => n.sub.map fun s => [(cur ++ [[35]], s)]

/-- `s_topic_tree_publish_do_recurse` (867-917): the subscriptions whose callback is invoked, in
order; `none` when a NULL callback would be called (901). -/
def publishGo (nodes : AMap Path Node) (cur : Path) : List Bytes → Option (List (Path × Sub))
  | [] =>                                                                          -- 878-888
    match nodes.get cur with
    | some { sub := some s, .. } => some [(cur, s)]
    | _ => some []
  | l :: rest => do
    let multi ← hashCalls nodes cur                                                -- 891-902
    let single ← (if nodes.get (cur ++ [[43]]) = none then some []                 -- 905-909
      else publishGo nodes (cur ++ [[43]]) rest)
    let exact ← (if nodes.get (cur ++ [l]) = none then some []                     -- 912-916
      else publishGo nodes (cur ++ [l]) rest)
    some (multi ++ single ++ exact)

/-- `aws_mqtt_topic_tree_publish` (919-933). -/
def publish (t : Tree) (topic : Bytes) : Option (List (Path × Sub)) := publishGo t.nodes [] (split 47 topic)

/-- Subscriptions visited by `aws_mqtt_topic_tree_iterate` (260-275) with an iterator that never
stops, as used by `get_sub_count` (286-295) and resubscription (client.c:2611-2640). -/
def iterate (t : Tree) : List (Path × Sub) := t.nodes.filterMap fun e => e.2.sub.map (e.1, ·)

end Mqtt.TopicTree
