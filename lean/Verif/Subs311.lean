import Verif.TopicTree

/-!
Subscriptions of an MQTT 3.1.1 connection: subscribe(), subscribe_multiple(), resubscribe_existing_topics(), unsubscribe(),
SUBACK and incoming messages (/repo/source/client.c, line numbers below unless another file is named), on top of the table of
`Verif/TopicTree.lean`.

A `struct subscribe_task_topic` of subscribe() has a number; its reference count is in `refs`, and it is freed when the count
becomes 0. A filter string is either owned by such a structure (and alive as long as the request is) or a string of the table,
which may be freed. Requests have a number, too, instead of a packet id that is used again. When a request is sent, sent
again, answered or given up is in `Verif/Client311.lean`; here each may happen at any time while the request is not complete.
Memory can be allocated. `subscribe_multiple` with one callback per filter and `subscribe` differ only in the callback's
arguments. SUBACK for a request of another kind is in C53 and left out here. `pick` and `order` are the order in which hash
tables are iterated. The topics of messages that come are legal, as in C09.
-/
namespace Mqtt.Subs311
open Mqtt Mqtt.TopicTree

/-- `"$share/"`. -/
def sharePrefix : Bytes := [36, 115, 104, 97, 114, 101, 47]

/-- `s_is_topic_shared_topic` (173-179). Filters have no zero byte. -/
def isShared (f : Bytes) : Bool := sharePrefix.isPrefixOf f

/-- What follows the first `/`. -/
def afterSlash : Bytes → Option Bytes
  | [] => none
  | b :: bs => if b = 47 then some bs else afterSlash bs

/-- `s_get_normal_topic_from_shared_topic` (181-208): the search begins at position 8. -/
def normalTopic (f : Bytes) : Option Bytes :=
  match afterSlash (f.drop 8) with                                                  -- 184-190
  | none => none                                                                    -- 193-196
  | some [] => none
  | some r => some r                                                                -- 197-205

/-- The filter under which a filter is in the table (2105-2139, 2888-2921); `none` if the request fails. -/
def tableKey (f : Bytes) : Option Bytes := if isShared f then normalTopic f else some f

/-- A filter string. -/
inductive Cursor where
  /-- A string of the request. -/
  | own (f : Bytes)
  /-- A string of the table. -/
  | table (str : Nat)
deriving DecidableEq, Repr

/-- `struct subscribe_task_topic`; those of resubscribe_existing_topics() have no user data and need no number. -/
structure Topic where
  cur : Cursor
  qos : Nat
  uid : Option Nat
deriving DecidableEq, Repr

/-- What was called. `subscribe` has the filter, the QoS and the number of each topic. -/
inductive Call where
  | subscribe (fs : List (Bytes × Nat × Nat))
  | resubscribe
  | unsubscribe (f : Bytes)
deriving DecidableEq, Repr

inductive Kind where
  | subscribe
  | resubscribe
  | unsubscribe (f : Bytes)
deriving DecidableEq, Repr

/-- `struct subscribe_task_arg` or `struct unsubscribe_task_arg`; `packet` is `none` while the packet has no type. -/
structure Request where
  id : Nat
  kind : Kind
  topics : List Topic := []
  packet : Option (List (Cursor × Nat)) := none
  updated : Bool := false
deriving DecidableEq, Repr

/-- What can be seen. A filter read from freed memory is `none`. -/
inductive Entry where
  /-- A call was accepted. -/
  | called (id : Nat) (c : Call)
  /-- SUBSCRIBE was handed to the channel. -/
  | sent (id : Nat) (fs : List (Option Bytes × Nat))
  /-- UNSUBSCRIBE was handed to the channel. -/
  | sentUnsubscribe (id : Nat) (f : Bytes)
  /-- The first SUBSCRIBE of a request could not be made when it was due. -/
  | unsent (id : Nat)
  /-- on_suback. -/
  | answered (id : Nat) (fs : List (Option Bytes × Nat)) (ok : Bool)
  /-- on_unsuback. -/
  | unsubscribed (id : Nat) (ok : Bool)
  /-- SUBACK was taken for a protocol error; the connection is closed. -/
  | protocolError (id : Nat)
  /-- on_publish of these topics was called. -/
  | delivered (topic : Bytes) (uids : List Nat)
  /-- on_cleanup was called and the topic freed. -/
  | cleanup (uid : Nat)
  /-- A freed topic was used. -/
  | invalid (uid : Nat)
  /-- A NULL callback was called. -/
  | crash
deriving DecidableEq, Repr

structure Conn where
  table : Tree := Tree.init
  requests : List Request := []
  refs : Nat → Nat := fun _ => 0
  nextId : Nat := 1
  nextUid : Nat := 0
  alive : Bool := true

/-- A string as it is read now. -/
def readCursor (t : Tree) : Cursor → Option Bytes
  | .own f => some f
  | .table s => if s ∈ t.freed then none else t.strings[s]?

def readTopics (t : Tree) (ts : List Topic) : List (Option Bytes × Nat) := ts.map fun x => (readCursor t x.cur, x.qos)

/-- `s_task_topic_release` (2041-2046) of each, with `s_task_topic_clean_up` (2048-2057). -/
def release (refs : Nat → Nat) : List Nat → (Nat → Nat) × List Entry
  | [] => (refs, [])
  | u :: us =>
    if refs u = 0 then
      let r := release refs us
      (r.1, .invalid u :: r.2)
    else
      let r := release (fun v => if v = u then refs u - 1 else refs v) us
      (r.1, (if refs u = 1 then [.cleanup u] else []) ++ r.2)

/-- `aws_ref_count_acquire` (2141) of each. -/
def acquire (refs : Nat → Nat) : List Nat → Nat → Nat
  | [] => refs
  | u :: us => acquire (fun v => if v = u then refs u + 1 else refs v) us

/-- `s_subscribe_complete` (2197-2259), `s_subscribe_single_complete` (2392-2438), `s_resubscribe_complete` (2706-2777),
`s_unsubscribe_complete` (2983-3012): what is seen, and the reference counts. -/
def Conn.finish (c : Conn) (r : Request) (ok : Bool) : Conn × List Entry :=
  match r.kind with
  | .subscribe =>
    let x := release c.refs (r.topics.filterMap (·.uid))                                          -- 2252-2255, 2434
    ({ c with refs := x.1 }, .answered r.id (readTopics c.table r.topics) ok :: x.2)              -- 2218-2240, 2412-2422
  | .resubscribe =>
    if r.topics = [] then (c, [])                                                                 -- 2716-2719
    else (c, [.answered r.id (readTopics c.table r.topics) ok])                                   -- 2732-2754, 2770-2773
  | .unsubscribe _ => (c, [.unsubscribed r.id ok])                                                -- 3005-3007

/-- The request is complete and is removed. -/
def Conn.complete (c : Conn) (r : Request) (ok : Bool) : Conn × List Entry :=
  { c with requests := c.requests.filter (·.id ≠ r.id) }.finish r ok

/-- Completing a list of requests. -/
def Conn.completeAll (c : Conn) (ok : Bool) : List Request → Conn × List Entry
  | [] => (c, [])
  | r :: rs =>
    let x := c.complete r ok
    let y := x.1.completeAll ok rs
    (y.1, x.2 ++ y.2)

/-- A request changes. -/
def Conn.update (c : Conn) (r : Request) : Conn :=
  { c with requests := c.requests.map fun x => if x.id = r.id then r else x }

/-- The filter of a topic of subscribe(). -/
def Topic.filter (x : Topic) : Bytes :=
  match x.cur with
  | .own f => f
  | .table _ => []

/-- The subscription that is put into the table for a topic (2116-2136). -/
def Topic.sub (x : Topic) : Sub := { callback := 0, cleanup := true, userdata := x.uid, qos := x.qos }

/-- The topics `s_subscribe_send` inserts (2091-2143), up to the first shared one it cannot parse, and whether it came to
the end. -/
def insertable : List Topic → List (Bytes × Topic) × Bool
  | [] => ([], true)
  | x :: xs =>
    match tableKey x.filter with
    | none => ([], false)                                                                         -- 2108-2115
    | some k =>
      let r := insertable xs
      ((k, x) :: r.1, r.2)

/-- Another table; the topics it dropped are released. -/
def Conn.setTable (c : Conn) (t : Tree) : Conn × List Entry :=
  let x := release c.refs (t.cleaned.drop c.table.cleaned.length)
  ({ c with table := t, refs := x.1 }, x.2)

/-- `s_subscribe_send` (2059-2195); `written` tells whether the message could be made and encoded. A message the channel does
not take is treated as sent (2158-2160). -/
def Conn.sendSubscribe (c : Conn) (pick : List Nat → Nat) (r : Request) (written : Bool) : Conn × List Entry :=
  let packet := r.packet.getD (r.topics.map fun x => (x.cur, x.qos))                              -- 2074-2079, 2097-2101
  let entry := Entry.sent r.id (packet.map fun e => (readCursor c.table e.1, e.2))
  if r.updated then
    if written then (c.update { r with packet := some packet }, [entry])
    else c.complete r false
  else
    let ins := insertable r.topics
    let c := { c with refs := acquire c.refs (ins.1.filterMap fun e : Bytes × Topic => e.2.uid) }                        -- 2141
    if ins.2 && written then
      let x := (c.update { r with packet := some packet, updated := true }).setTable              -- 2176-2179
        (subscribe pick c.table (ins.1.map fun e : Bytes × Topic => (e.1, e.2.sub)))
      (x.1, entry :: x.2)
    else
      let x := c.setTable (aborted c.table (ins.1.map fun e : Bytes × Topic => .insert e.1 e.2.sub))              -- 2184-2194
      let y := x.1.complete r false
      (y.1, .unsent r.id :: (x.2 ++ y.2))

/-- The subscriptions of the table: string and QoS (topic_tree.c:239-275). -/
def found (t : Tree) : List (Nat × Nat) := t.nodes.filterMap fun e => e.2.sub.map fun s => (e.2.filterStr, s.qos)

/-- `s_resubscribe_send` (2611-2704); `order` is what the iteration over the table found. -/
def Conn.sendResubscribe (c : Conn) (order : List (Nat × Nat)) (r : Request) (written : Bool) : Conn × List Entry :=
  let topics := order.map fun e => { cur := .table e.1, qos := e.2, uid := none : Topic }         -- 2581-2596, 2622, 2632
  if order = [] then c.complete { r with topics := [] } true                                      -- 2625-2631
  else
    let packet := r.packet.getD (topics.map fun x => (x.cur, x.qos))                              -- 2641-2663
    if written then
      (c.update { r with topics, packet := some packet },
       [.sent r.id (packet.map fun e => (readCursor c.table e.1, e.2))])
    else c.complete { r with topics, packet := some packet } false                                -- 2697-2703

/-- `s_unsubscribe_send` (2861-2981); `written` tells whether the message could be made, encoded and handed to the channel. -/
def Conn.sendUnsubscribe (c : Conn) (pick : List Nat → Nat) (r : Request) (f : Bytes) (written : Bool) : Conn × List Entry :=
  if r.updated then
    if written then (c, [.sentUnsubscribe r.id f]) else c.complete r false
  else
    match tableKey f with
    | none => c.complete r false                                                                  -- 2892-2900
    | some k =>
      if written then
        let x := (c.update { r with updated := true }).setTable (unsubscribe pick c.table k)      -- 2961-2964
        (x.1, .sentUnsubscribe r.id f :: x.2)
      else c.complete r false                                                                     -- 2970-2980

/-- `s_packet_handler_suback` for a request of subscribe() or resubscribe (client_channel_handler.c:398-437). -/
def Conn.suback (c : Conn) (r : Request) (codes : List Nat) : Conn × List Entry :=
  if r.topics.length ≠ codes.length then (c, [.protocolError r.id])                               -- 416-420
  else c.complete { r with topics := r.topics.zipWith (fun x q => { x with qos := q }) codes } true   -- 421-432

/-- The numbers of topics in the order of the filters. -/
def numbered (n : Nat) : List (Bytes × Nat) → List (Bytes × Nat × Nat)
  | [] => []
  | (f, q) :: fs => (f, q, n) :: numbered (n + 1) fs

inductive Event where
  /-- subscribe() or subscribe_multiple() with these filters. -/
  | subscribe (fs : List (Bytes × Nat))
  | resubscribe
  | unsubscribe (f : Bytes)
  /-- The request is sent, for the first time or again. -/
  | send (id : Nat) (pick : List Nat → Nat) (order : List (Nat × Nat)) (written : Bool)
  | suback (id : Nat) (codes : List Nat)
  | unsuback (id : Nat)
  /-- Timeout, or the session ends. -/
  | fail (id : Nat)
  | message (topic : Bytes)
  | destroy

def Conn.request (c : Conn) (id : Nat) : Option Request := c.requests.find? (·.id = id)

/-- When an event can happen. -/
def Enabled (c : Conn) : Event → Prop
  | .subscribe fs => fs ≠ [] ∧ ∀ e ∈ fs, isValidTopicFilter e.1 = true                            -- 2271, 2304, 2453
  | .resubscribe => True
  | .unsubscribe f => isValidTopicFilter f = true                                                 -- 3023
  | .send id pick order _ => ∃ r, c.request id = some r ∧ (r.kind = .resubscribe → order.Perm (found c.table)) ∧
      ∀ l, l ≠ [] → pick l ∈ l
  | .suback id _ => ∃ r, c.request id = some r ∧ (r.kind = .subscribe ∨ r.kind = .resubscribe)
  | .unsuback id => ∃ r f, c.request id = some r ∧ r.kind = .unsubscribe f
  | .fail id => ∃ r, c.request id = some r
  | .message topic => isValidTopic topic = true
  | .destroy => True

def Conn.uses (c : Conn) (uids : List Nat) : List Entry := uids.flatMap fun u => if c.refs u = 0 then [.invalid u] else []

def step (c : Conn) : Event → Conn × List Entry
  | .subscribe fs =>                                                                              -- 2261-2386, 2440-2552
    let ns := numbered c.nextUid fs
    ({ c with
        requests := c.requests ++ [{ id := c.nextId, kind := .subscribe,
                                     topics := ns.map fun e => { cur := .own e.1, qos := e.2.1, uid := some e.2.2 } }]
        refs := fun v => if c.nextUid ≤ v ∧ v < c.nextUid + fs.length then 1 else c.refs v
        nextId := c.nextId + 1
        nextUid := c.nextUid + fs.length },
     [.called c.nextId (.subscribe ns)])
  | .resubscribe =>                                                                               -- 2779-2837
    ({ c with requests := c.requests ++ [{ id := c.nextId, kind := .resubscribe }], nextId := c.nextId + 1 },
     [.called c.nextId .resubscribe])
  | .unsubscribe f =>                                                                             -- 3014-3073
    ({ c with requests := c.requests ++ [{ id := c.nextId, kind := .unsubscribe f }], nextId := c.nextId + 1 },
     [.called c.nextId (.unsubscribe f)])
  | .send id pick order written =>
    match c.request id with
    | none => (c, [])
    | some r => match r.kind with
      | .subscribe => c.sendSubscribe pick r written
      | .resubscribe => c.sendResubscribe order r written
      | .unsubscribe f => c.sendUnsubscribe pick r f written
  | .suback id codes =>
    match c.request id with
    | none => (c, [])
    | some r => c.suback r codes
  | .unsuback id =>
    match c.request id with
    | none => (c, [])
    | some r => c.complete r true
  | .fail id =>
    match c.request id with
    | none => (c, [])
    | some r => c.complete r false
  | .message topic =>                                                                             -- 2024-2039
    match publish c.table topic with
    | none => (c, [.crash])
    | some calls =>
      let uids := calls.filterMap (·.2.userdata)
      (c, c.uses uids ++ [.delivered topic uids])
  | .destroy =>                                                                                   -- 818-905
    let x := { c with alive := false }.setTable (cleanUp c.table)                                 -- 863
    let y := x.1.completeAll false c.requests                                                     -- 869-878
    (y.1, x.2 ++ y.2)

/-- All histories with what was seen. -/
inductive Reachable : Conn → List Entry → Prop where
  | init : Reachable {} []
  | step {c : Conn} {log : List Entry} (e : Event) : Reachable c log → c.alive = true → Enabled c e →
      Reachable (step c e).1 (log ++ (step c e).2)

end Mqtt.Subs311
