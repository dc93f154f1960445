import Verif.Client311

/-!
The websocket handshake of an MQTT 3.1.1 connection (/repo/source/client.c): the handshake request, the user's callbacks that
transform it and validate the response, and the opening of the websocket. The connection itself is `Verif/Client311.lean`, in which an
attempt to open a websocket is in progress while `opening` is set.

`aws_mqtt_client_connection_use_websockets` has been called before the first `connect`. The user calls the completion function
of a transformation once, on any thread and with the request they were given (include/aws/mqtt/client.h:169-194). A call of
`aws_websocket_client_connect` that succeeds is followed by one call of the setup callback on the event loop of the connection; one that
fails by none.
-/
namespace Mqtt.Websocket311

open Mqtt.Client311

/-- The callbacks given to `aws_mqtt_client_connection_use_websockets` (1402-1420): whether they are set. -/
structure Options where
  transformer : Bool := false
  validator : Bool := false
deriving DecidableEq, Repr

/-- What can be seen of attempts. They are numbered; the request of an attempt has its number. -/
inductive Effect where
  /-- `aws_http_message_new_websocket_handshake_request` (1567) -/
  | made (r : Nat)
  /-- The user's transformer is called with a request (1586-1590). -/
  | transform (r : Nat)
  /-- `aws_websocket_client_connect` is called with a request (1672). -/
  | connect (r : Nat)
  /-- `aws_http_message_release` (1509, 1600) -/
  | released (r : Nat)
  /-- The user's validator is called for the response to the handshake of an attempt; it accepts or not (1535-1539). -/
  | validate (r : Nat) (accepts : Bool)
  /-- The websocket is handed to `s_mqtt_client_init` (1558), which installs the MQTT handler in it unless the connection is being
  disconnected. -/
  | install (r : Nat)
deriving DecidableEq, Repr

/-- Where the attempt is. -/
inductive Phase where
  | idle
  /-- The user transforms the request. -/
  | transforming
  /-- The websocket is being opened. -/
  | connecting
  /-- `s_on_websocket_setup_task_fn` is scheduled (1612-1624). -/
  | failing
deriving DecidableEq, Repr

structure Ws where
  /-- `websocket.handshake_request` -/
  request : Option Nat := none
  /-- Requests made so far. -/
  made : Nat := 0
  phase : Phase := .idle
  log : List Effect := []
deriving DecidableEq, Repr

/-- `s_websocket_handshake_transform_complete` (1626-1695): with an error or not; `opened` is whether
`aws_websocket_client_connect` succeeds. -/
def Ws.complete (w : Ws) (r : Nat) (error opened : Bool) : Ws :=
  if error then { w with phase := .failing }                                                      -- 1633-1640, 1679-1694
  else { w with phase := if opened then .connecting else .failing, log := w.log ++ [.connect r] } -- 1642-1694

/-- What the libraries do in an event of the connection. -/
structure Outside where
  /-- The request can be made (1567), and its header added (1575). -/
  message : Bool := true
  header : Bool := true
  /-- `aws_websocket_client_connect` succeeds (1672). -/
  opened : Bool := true
  /-- The websocket can be converted (1518). -/
  converted : Bool := true
deriving DecidableEq, Repr

/-- `s_websocket_connect` (1563-1603). The field `handshake_request` is overwritten, whatever it was. -/
def Ws.start (o : Options) (w : Ws) (x : Outside) : Ws :=
  if !x.message then { w with request := none }                                                   -- 1570-1573, 1599-1601
  else
    let r := w.made
    let w : Ws := { w with request := some r, made := r + 1, log := w.log ++ [.made r] }
    if !x.header then { w with request := none, log := w.log ++ [.released r] }                   -- 1575-1579, 1599-1601
    else if o.transformer then { w with phase := .transforming, log := w.log ++ [.transform r] }  -- 1583-1590
    else w.complete r false x.opened                                                              -- 1592-1595

/-- `s_on_websocket_setup` (1500-1559). -/
def Ws.setup (o : Options) (w : Ws) (x : Outside) (s : Setup) : Ws :=
  let w := { w with phase := .idle }
  let w := match w.request with
    | none => w
    | some r => { w with request := none, log := w.log ++ [.released r] }                         -- 1508-1511
  if s = .failed then w
  else
    let r := w.made - 1
    if !x.converted then w                                                                        -- 1518-1528
    else
      let w := if o.validator then { w with log := w.log ++ [.validate r (s ≠ .refused)] } else w -- 1532-1553
      if s = .refused then w
      else { w with log := w.log ++ [.install r] }                                                -- 1558

inductive Event where
  /-- An event of the connection. -/
  | base (e : Client311.Event) (x : Outside := {})
  /-- The user calls the completion function of the transformation. -/
  | transformed (error : Bool) (opened : Bool := true)
deriving DecidableEq, Repr

/-- When an event can happen: `s_mqtt_client_connect` succeeds if `s_websocket_connect` does, and the setup callback is called
by the websocket library or by the task. -/
def Enabled (o : Options) (c : Conn) (w : Ws) : Event → Bool
  | .base e x => Client311.Enabled c e && match e with
    | .launch ok => ok = (x.message && x.header)
    | .attempt ok => c.state = .disconnecting ∨ ok = (x.message && x.header)
    | .setup s => w.phase = .failing ∧ s = .failed ∨
        w.phase = .connecting ∧ (s = .refused → x.converted = false ∨ o.validator = true) ∧
          (s = .unsent ∨ s = .opened → x.converted = true)
    | _ => true
  | .transformed .. => w.phase = .transforming

def step (o : Options) (c : Conn) (w : Ws) : Event → Except Fault (Conn × Ws)
  | .base e x =>
    match Client311.step c e with
    | .error f => .error f
    | .ok c' => .ok (c', match e with
      | .launch _ => w.start o x                                                                  -- 1884, 1922
      | .attempt _ => if c.state = .disconnecting then w else w.start o x                         -- 722-804, 1922
      | .setup s => w.setup o x s
      | _ => w)
  | .transformed error opened =>
    match w.request with
    | none => .error .memory
    | some r => .ok (c, w.complete r error opened)

/-- Histories without a fault of the connection. -/
inductive Reachable (o : Options) : Conn → Ws → Prop where
  | init : Reachable o {} {}
  | step {c c' : Conn} {w w' : Ws} {e : Event} : Reachable o c w → c.destroyed = false → Enabled o c w e = true →
    step o c w e = .ok (c', w') → Reachable o c' w'

end Mqtt.Websocket311
