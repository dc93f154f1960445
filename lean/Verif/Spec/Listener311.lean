import Verif.Listener311

/-!
What the log of an MQTT 3.1.1 connection says about its listeners (C86).
-/
namespace Mqtt.Listener311

/-- The listeners that are attached and did not terminate, the last one first. -/
def live (log : List Entry) : List Nat :=
  log.foldl (fun a e => match e with
    | .attached n => n :: a
    | .terminated n => a.filter (· ≠ n)
    | _ => a) []

def handlersIn (num : Nat) : Entry → Option (List Kind)
  | .created n hs => if n = num then some hs else none
  | _ => none

/-- The handlers a listener was created with. -/
def handlers (log : List Entry) (num : Nat) : List Kind := (log.findSome? (handlersIn num)).getD []

/-- The handlers that were called. -/
def calls (log : List Entry) : List (Nat × Ev) :=
  log.filterMap fun e => match e with
    | .called n e => some (n, e)
    | _ => none

/-- There is no begin and no end of an event in this part of the log. -/
def Within (log : List Entry) : Prop := .finished ∉ log ∧ ∀ e, .event e ∉ log

/-- Users hold no reference of this listener. -/
def Free (log : List Entry) (num : Nat) : Prop :=
  (∃ hs, .created num hs ∈ log) ∧ log.count (.released num) = 1 + log.count (.acquired num)

/-- Nobody but listeners holds a reference of the connection. -/
def ConnFree (log : List Entry) : Prop :=
  log.count .connReleased + log.count .offline = 1 + log.count .connAcquired + log.count .connect

end Mqtt.Listener311
