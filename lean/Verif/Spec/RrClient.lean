import Verif.RrClient

/-! What the log of the request-response client says about a request. -/
namespace Mqtt.RrClient

/-- An invocation of the completion callback of a request. -/
def isCompletion (id : Nat) : Trace → Bool
  | .response i _ _ => i == id
  | .failed i _ => i == id
  | _ => false

/-- How often the completion callback of a request has been invoked. -/
def completions (log : List Trace) (id : Nat) : Nat := log.countP (isCompletion id)

/-- The request has been accepted by `aws_mqtt_request_response_client_submit_request`. -/
def wasSubmitted (log : List Trace) (id : Nat) : Prop := ∃ r, Trace.submitted id r ∈ log

/-- The stream has been told that its subscription is over. -/
def halted (log : List Trace) (id : Nat) : Prop := ∃ e, Trace.status id (.halted e) ∈ log

/-- An invocation of the incoming publish callback of a stream. -/
def isDelivery (id : Nat) : Trace → Bool
  | .delivered i _ _ => i == id
  | _ => false

/-- An invocation of a completion callback with a response. -/
def isResponse : Trace → Bool
  | .response .. => true
  | _ => false

/-- The value found by following member names, the first member of a name in each object. -/
def FieldAt (same : Bytes → Bytes → Bool) : List Bytes → Json → Json → Prop
  | [], j, v => j = v
  | s :: ss, j, v => ∃ before k x after, j = .object (before ++ (k, x) :: after) ∧ same k s = true ∧
      (∀ e ∈ before, same e.1 s = false) ∧ FieldAt same ss x v

/-- A path is made of these names, separated by dots. -/
def Segments (path : Bytes) (names : List Bytes) : Prop :=
  names ≠ [] ∧ (∀ s ∈ names, (46 : UInt8) ∉ s) ∧ path = (names.intersperse [46]).flatten

/-- The publish has the correlation token at the path; without a path the token is empty. -/
def Carries (same : Bytes → Bytes → Bool) (path : Bytes) (msg : Message) (token : Bytes) : Prop :=
  path = [] ∧ token = [] ∨
  path ≠ [] ∧ ∃ j names, msg.json = some j ∧ Segments path names ∧ FieldAt same names j (.string token)

/-- No service run finds a request past its timeout in the queue. -/
def Timely (c : Client) : Event → Prop
  | .service _ expired => ∀ id ∈ expired, id ∉ c.queue
  | _ => True

/-- The client after some more events. -/
inductive Later (cfg : Config) (allowed : Client → Event → Prop) (c : Client) : Client → Prop where
  | refl : Later cfg allowed c c
  | step {c1 c2 : Client} {now : Nat} {e : Event} : Later cfg allowed c c1 → c1.terminated = false → c1.clock ≤ now →
    Enabled c1 now e → allowed c1 e → stepAt cfg { c1 with clock := now } now e = .ok c2 → Later cfg allowed c c2
  | rehash {c1 c2 : Client} : Later cfg allowed c c1 → Rehash c1 c2 → Later cfg allowed c c2

end Mqtt.RrClient
