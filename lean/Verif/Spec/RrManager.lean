import Verif.RrManager

/-!
What the log of the subscription manager says about a topic filter, without reference to the manager's records.
-/
namespace Mqtt.Rr

/-- Whether an operation depends on a filter: it has acquired it, has not released it, and has not been told that the
subscription has ended. -/
def needs (log : List Trace) (i : Nat) (f : Bytes) : Bool :=
  log.foldl (fun b e => match e with
    | .acquired j g _ => if j = i ∧ g = f then true else b
    | .released j g => if j = i ∧ g = f then false else b
    | .status s => if s.type = .subscriptionEnded ∧ s.op = i ∧ s.filter = f then false else b
    | _ => b) false

/-- Whether the server has the subscription, as far as completions and lost sessions tell. -/
def broker (log : List Trace) (f : Bytes) : Bool :=
  log.foldl (fun b e => match e with
    | .finished .subscribe g ok => if g = f then ok || b else b
    | .finished .unsubscribe g ok => if g = f then !ok && b else b
    | .sessionLost => false
    | _ => b) false

/-- The kind of operation a filter was last acquired for. -/
def kindOf (log : List Trace) (f : Bytes) : Option Kind :=
  log.foldl (fun b e => match e with
    | .acquired _ g k => if g = f then some k else b
    | _ => b) none

/-- `max_request_response_subscriptions` and `max_streaming_subscriptions`. -/
def Config.max (cfg : Config) : Kind → Nat
  | .request => cfg.maxRequest
  | .stream => cfg.maxStream

/-- A subscription held: the server has it, or a call for it is not completed. -/
def holds (log : List Trace) (f : Bytes) : Prop :=
  broker log f = true ∨ outstanding log .subscribe f > 0 ∨ outstanding log .unsubscribe f > 0

end Mqtt.Rr
