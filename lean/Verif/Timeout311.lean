/-!
Operation timeouts of an MQTT 3.1.1 connection (/repo/source/client.c, line numbers below unless another file is named).

Times are nanoseconds. A request and its `..._task_arg` are one structure with a number, and a timeout task has a number; both
are freed and the pointers between them (`struct request_timeout_wrapper`, `struct request_timeout_task_arg`) are the fields
`timer` and `owner`. A request is sent at most once per channel (C49). Acknowledgements for requests that were not sent on the
channel are in C53 and left out here. A channel cancels its tasks before it reports that it is shut down (aws-c-io). Requests
that fail for other reasons than a timeout do so at any time. Memory can be allocated.
-/
namespace Mqtt.Timeout311

def umax : Nat := 18446744073709551615

structure Req where
  num : Nat
  pid : Nat
  qos0 : Bool
  timeout : Nat
  tried : Bool := false
  /-- When it was handed to the channel that is in use. -/
  sentAt : Option Nat := none
  /-- `timeout_wrapper.timeout_task_arg`. -/
  timer : Option Nat := none
deriving DecidableEq, Repr

structure Timer where
  num : Nat
  pid : Nat
  due : Nat
  /-- `task_arg_wrapper`. -/
  owner : Option Nat
deriving DecidableEq, Repr

inductive Result where
  | ok
  | timeout
  | failed
deriving DecidableEq, Repr

/-- What can be seen, with the time. -/
inductive Entry where
  /-- connect() with `protocol_operation_timeout_ms`. -/
  | connect (ms : Nat)
  | submitted (num : Nat)
  /-- The packet was handed to the channel. -/
  | sent (num : Nat) (time : Nat)
  /-- The packet was written to the socket. -/
  | written (num : Nat)
  | done (num : Nat) (r : Result) (time : Nat)
  /-- The channel was shut down. -/
  | down
  /-- Freed memory was used. -/
  | invalid
deriving DecidableEq, Repr

structure Conn where
  now : Nat := 0
  /-- There is a channel. -/
  chan : Bool := false
  /-- `operation_timeout_ns`; 0 in a new connection. -/
  opTimeout : Nat := 0
  reqs : List Req := []
  timers : List Timer := []
  nextReq : Nat := 0
  nextTimer : Nat := 0

def Conn.find (c : Conn) (pid : Nat) : Option Req := c.reqs.find? (·.pid = pid)

def Conn.setReq (c : Conn) (num : Nat) (f : Req → Req) : Conn :=
  { c with reqs := c.reqs.map fun r => if r.num = num then f r else r }

/-- `s_subscribe_complete` (2242-2250), `s_subscribe_single_complete` (2424-2432), `s_resubscribe_complete` (2758-2766),
`s_unsubscribe_complete` (2995-3003), `s_publish_complete` (3272-3280): the timeout task forgets the request, which is freed. -/
def Conn.complete (c : Conn) (r : Req) (res : Result) : Conn × List Entry :=
  ({ c with
      reqs := c.reqs.filter (·.num ≠ r.num)
      timers := c.timers.map fun t => if r.timer = some t.num then { t with owner := none } else t },
   .done r.num res c.now ::
     match r.timer with
     | some t => if c.timers.any (·.num = t) then [] else [.invalid]
     | none => [])

/-- `mqtt_request_complete` (client_channel_handler.c:1013-1067). -/
def Conn.requestComplete (c : Conn) (pid : Nat) (res : Result) : Conn × List Entry :=
  match c.find pid with
  | some r => c.complete r res
  | none => (c, [])

/-- The end of `s_request_timeout` (117-128). -/
def Conn.dropTimer (c : Conn) (num : Nat) : Conn × List Entry :=
  let owner := (c.timers.find? (·.num = num)).bind (·.owner)
  let c := { c with timers := c.timers.filter (·.num ≠ num) }
  match owner with
  | some n => (c.setReq n fun r => { r with timer := none }, if c.reqs.any (·.num = n) then [] else [.invalid])
  | none => (c, [])

/-- `s_request_timeout` (106-129) when it is run. -/
def Conn.expire (c : Conn) (t : Timer) : Conn × List Entry :=
  let x := if t.owner ≠ none then c.requestComplete t.pid .timeout else (c, [])                   -- 111-115
  let y := x.1.dropTimer t.num
  (y.1, x.2 ++ y.2)

/-- `s_request_timeout` when the channel cancels it. -/
def Conn.cancelAll (c : Conn) : List Timer → Conn × List Entry
  | [] => (c, [])
  | t :: ts =>
    let x := c.dropTimer t.num
    let y := x.1.cancelAll ts
    (y.1, x.2 ++ y.2)

/-- `s_schedule_timeout_task` (131-164). -/
def Conn.schedule (c : Conn) (r : Req) (pid : Nat) : Conn :=
  if r.timeout = umax ∨ r.timeout = 0 ∨ pid = 0 then c                                            -- 136-138
  else
    let t := { num := c.nextTimer, pid := pid, due := min (c.now + r.timeout) umax, owner := some r.num : Timer }   -- 161
    { c with timers := c.timers ++ [t], nextTimer := c.nextTimer + 1 }.setReq r.num fun r => { r with timer := some t.num }

/-- What `send_request` did. -/
inductive Sending where
  | error
  /-- The channel did not take a publish with QoS 1 (3219-3224). -/
  | refused
  | sent
deriving DecidableEq, Repr

/-- `s_request_outgoing_task` (client_channel_handler.c:806-866) with `s_subscribe_send` (2162-2174), `s_resubscribe_send`
(2681-2693), `s_unsubscribe_send` (2947-2959), `s_publish_send` (3177-3250). -/
def Conn.send (c : Conn) (r : Req) : Sending → Conn × List Entry
  | .error => c.complete r .failed
  | .refused => (c.setReq r.num fun r => { r with tried := true }, [])
  | .sent =>
    let c := c.setReq r.num fun r => { r with tried := true, sentAt := some c.now }
    let c := c.schedule r (if r.qos0 then 0 else r.pid)                                           -- 3178-3181
    if r.qos0 then
      let x := c.complete { r with sentAt := some c.now, tried := true } .ok                      -- 3249
      (x.1, .sent r.num c.now :: x.2)
    else (c, [.sent r.num c.now])

inductive Event where
  | tick (ns : Nat)
  /-- connect(). -/
  | connect (ms : Nat)
  /-- A new channel is ready for packets. -/
  | up
  | down
  /-- subscribe(), unsubscribe(), publish() or resubscribe_existing_topics() was accepted. -/
  | submit (pid : Nat) (qos0 : Bool)
  | send (pid : Nat) (s : Sending)
  /-- The packet is written to the socket. -/
  | write (pid : Nat)
  | ack (pid : Nat)
  /-- Another reason why a request ends. -/
  | fail (pid : Nat)
  /-- A timeout task is run. -/
  | run (timer : Nat)
deriving DecidableEq, Repr

def Enabled (c : Conn) : Event → Prop
  | .tick _ => True
  | .connect ms => c.chan = false ∧ ms < 4294967296
  | .up => c.chan = false
  | .down => c.chan = true
  | .submit pid _ => pid ≠ 0 ∧ ∀ r ∈ c.reqs, r.pid ≠ pid                                          -- C48
  | .send pid s => c.chan = true ∧ ∃ r, c.find pid = some r ∧ r.tried = false ∧ (r.qos0 = true → s ≠ .refused)
  | .write pid => c.chan = true ∧ ∃ r, c.find pid = some r ∧ r.sentAt ≠ none
  | .ack pid => c.chan = true ∧ ∃ r, c.find pid = some r ∧ r.tried = true
  | .fail pid => ∃ r, c.find pid = some r
  | .run num => c.chan = true ∧ ∃ t ∈ c.timers, t.num = num ∧ t.due ≤ c.now

def step (c : Conn) : Event → Conn × List Entry
  | .tick ns => ({ c with now := c.now + ns }, [])
  | .connect ms => ({ c with opTimeout := if ms = 0 then umax else ms * 1000000 }, [.connect ms])   -- 1759-1767
  | .up => ({ c with chan := true }, [])
  | .down =>
    let x := c.cancelAll c.timers
    ({ x.1 with chan := false, reqs := x.1.reqs.map fun r => { r with tried := false, sentAt := none } }, x.2 ++ [.down])   -- 297-317
  | .submit pid qos0 =>                                                   -- 2284, 2478, 2797, 3039, 3323; 2574, 3084, 3393
    ({ c with
        reqs := c.reqs ++ [{ num := c.nextReq, pid, qos0, timeout := c.opTimeout }]
        nextReq := c.nextReq + 1 }, [.submitted c.nextReq])
  | .send pid s => match c.find pid with
    | some r => c.send r s
    | none => (c, [])
  | .write pid => match c.find pid with
    | some r => (c, [.written r.num])
    | none => (c, [])
  | .ack pid => c.requestComplete pid .ok
  | .fail pid => c.requestComplete pid .failed
  | .run num => match c.timers.find? (·.num = num) with
    | some t => c.expire t
    | none => (c, [])

inductive Reachable : Conn → List Entry → Prop where
  | init : Reachable {} []
  | step {c : Conn} {log : List Entry} (e : Event) : Reachable c log → Enabled c e → Reachable (step c e).1 (log ++ (step c e).2)

end Mqtt.Timeout311
