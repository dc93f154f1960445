import Verif.Options311
import Verif.Spec.Wire311

/-!
What a user of an MQTT 3.1.1 connection has asked for, from the calls that were accepted alone.
-/
namespace Mqtt.Options311
open Mqtt

/-- The will that was set last. -/
def lastWill : List Entry → Option Will
  | [] => none
  | e :: log => match lastWill log with
    | some w => some w
    | none => match e with
      | .will w true => some w
      | _ => none

/-- User name and password that were set last. -/
def lastLogin : List Entry → Option (Bytes × Option Bytes)
  | [] => none
  | e :: log => match lastLogin log with
    | some l => some l
    | none => match e with
      | .login u p true => some (u, p)
      | _ => none

/-- The metrics that were set last, which may be none. -/
def lastMetrics : List Entry → Option (Option Metrics.Metrics)
  | [] => none
  | e :: log => match lastMetrics log with
    | some m => some m
    | none => match e with
      | .metrics m true => some m
      | _ => none

/-- The options of the last `connect()`. -/
def lastOptions : List Entry → Option Options
  | [] => none
  | e :: log => match lastOptions log with
    | some o => some o
    | none => match e with
      | .accepted o => some o
      | _ => none

/-- The CONNECT with this user name and password. -/
def connectOf (o : Options) (will : Option Will) (username password : Option Bytes) : Spec.Connect where
  clientId := o.clientId
  cleanSession := o.cleanSession
  keepAlive := if o.keepAlive = 0 then 1200 else o.keepAlive
  will := will.map fun w => { topic := w.topic, message := w.payload, qos := w.qos, retain := w.retain }
  username := username
  password := password

/-- The CONNECT that was asked for (without metrics). -/
def asked (o : Options) (log : List Entry) : Spec.Connect :=
  connectOf o (lastWill log) ((lastLogin log).map (·.1)) ((lastLogin log).bind (·.2))

/-- The user name with metrics, the user name itself if they do not fit (see C57). -/
def userName (platform : Bytes) (log : List Entry) : Bytes :=
  let user := ((lastLogin log).map (·.1)).getD []
  match (lastMetrics log).join with
  | none => user
  | some m => match Metrics.append platform user (some m) true with
    | .ok u => u
    | _ => user

/-- The CONNECT that is sent: an empty user name is not sent, nor the password with it; an empty password is not sent. -/
def expected (platform : Bytes) (o : Options) (log : List Entry) : Spec.Connect :=
  let user := userName platform log
  let pass := ((lastLogin log).bind (·.2)).getD []
  connectOf o (lastWill log) (if user = [] then none else some user) (if user = [] ∨ pass = [] then none else some pass)

/-- Some `connect()` was given TLS options. -/
def EverTls (log : List Entry) : Prop := ∃ o, Entry.accepted o ∈ log ∧ o.tls ≠ none

end Mqtt.Options311
