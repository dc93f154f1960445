import Verif.AdapterOptions

/-!
What a user of an adapter has asked for, from the calls that returned success and had their turn alone.
-/
namespace Mqtt.AdapterOptions
open Mqtt Mqtt.V5

/-- What is known from what was seen: the calls that wait, those that had their effect, the oldest first, and the client id. -/
structure Seen where
  waiting : List Call := []
  done : List Call := []
  clientId : Bytes
deriving DecidableEq, Repr

def Seen.next (s : Seen) : Entry → Seen
  | .called x => { s with waiting := s.waiting ++ [x] }
  | .took => match s.waiting with
    | [] => s
    | x :: rest =>
      { waiting := rest
        done := s.done ++ [x]
        clientId := match x with | .connect o => o.clientId | _ => s.clientId }
  | .already => { s with waiting := s.waiting.drop 1 }
  | .assigned id => { s with clientId := if s.clientId = [] then id else s.clientId }
  | _ => s

/-- With the client id that the client had first. -/
def seen (id : Bytes) (log : List Entry) : Seen := log.foldl Seen.next { clientId := id }

/-- The options of the last `connect()`. -/
def lastConnect (done : List Call) : Option Options :=
  done.foldl (fun r x => match x with | .connect o => some o | _ => r) none

def lastWill (done : List Call) : Option Will :=
  done.foldl (fun r x => match x with | .will w => some w | _ => r) none

def lastLogin (done : List Call) : Option (Option Bytes × Option Bytes) :=
  done.foldl (fun r x => match x with | .login u p => some (u, p) | _ => r) none

/-- The metrics, and those of the client if none were set. -/
def metrics (m : Option Metrics.Metrics) (done : List Call) : Option Metrics.Metrics :=
  done.foldl (fun r x => match x with | .metrics m => m | _ => r) m

/-- The metrics when the last login took effect. -/
def metricsAtLogin (m : Option Metrics.Metrics) (done : List Call) : Option Metrics.Metrics :=
  (done.foldl (fun r x => match x with | .metrics m => (m, r.2) | .login _ _ => (r.1, r.1) | _ => r) (m, none)).2

def lastReconnect (done : List Call) : Option (Nat × Nat) :=
  done.foldl (fun r x => match x with | .reconnect lo hi => some (lo, hi) | _ => r) none

/-- Where to connect to. -/
def wantedDest (g : Config) (done : List Call) : Dest :=
  match lastConnect done with
  | some o => ⟨o.host, o.port, o.socket, o.tls⟩
  | none => g.dest

/-- The user name with metrics (see C57), none if it would be too long. -/
def nameWith (platform : Bytes) (m : Option Metrics.Metrics) (u : Option Bytes) : Option (Option Bytes) :=
  if u.getD [] = [] ∧ m = none then some none
  else match Metrics.append platform (u.getD []) m true with
    | .ok x => some (some x)
    | _ => none

/-- The user name that was asked for. -/
def askedName (g : Config) (done : List Call) : Option Bytes :=
  match lastLogin done with
  | some (u, _) => u
  | none => g.connect.username

/-- A password of no bytes is none. -/
def askedPassword (g : Config) (done : List Call) : Option Bytes :=
  match lastLogin done with
  | some (_, p) => if p = some [] then none else p
  | none => g.connect.password

/-- The CONNECT that was asked for, with this user name: options that MQTT 3.1.1 does not have are those of the client; a session
that is kept is kept for a week. -/
def wanted (g : Config) (o : Options) (s : Seen) (username : Option Bytes) : ConnectView :=
  { g.connect with
    clientId := s.clientId
    keepAlive := if o.keepAlive = 0 then 1200 else o.keepAlive
    cleanStart := o.cleanSession
    sessionExpiry := if o.cleanSession then none else some 604800
    will := match lastWill s.done with
      | some w => some { topic := w.topic, qos := w.qos, retain := w.retain, payload := w.payload }
      | none => g.connect.will
    username
    password := askedPassword g s.done
    topicAliasMaximum := match g.inboundAliases with | some n => some n | none => g.connect.topicAliasMaximum }

/-- A login that can be sent: user name and password fit into a CONNECT, and the user name is text. -/
def GoodLogin (u p : Option Bytes) : Prop :=
  (u.getD []).length ≤ 65535 ∧ validUtf8Text (u.getD []) = true ∧ (p.getD []).length ≤ 65535

/-- All logins and wills can be sent. -/
def Good (done : List Call) : Prop := ∀ x ∈ done, match x with
  | .login u p => GoodLogin u p
  | .will w => w.payload.length ≤ 65535
  | _ => True

/-- A socket was opened, and no `connect()` has had its effect since. -/
def freshFrom : Bool × List Call → Entry → Bool × List Call
  | (_, ws), .dialed _ => (true, ws)
  | (f, ws), .called x => (f, ws ++ [x])
  | (f, ws), .took => match ws with
    | .connect _ :: rest => (false, rest)
    | _ :: rest => (f, rest)
    | [] => (f, [])
  | (f, ws), .already => (f, ws.drop 1)
  | r, _ => r

def fresh (log : List Entry) : Bool := (log.foldl freshFrom (false, [])).1

/-- Where the last socket was opened to. -/
def lastDial (log : List Entry) : Option Dest :=
  log.foldl (fun r e => match e with | .dialed d => some d | _ => r) none

end Mqtt.AdapterOptions
