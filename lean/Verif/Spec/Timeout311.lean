import Verif.Timeout311

/-!
What the log of an MQTT 3.1.1 connection says about operation timeouts (C85).
-/
namespace Mqtt.Timeout311

/-- The `protocol_operation_timeout_ms` of the last connect(), in nanoseconds; `none` if there is none or it is 0. -/
def configured (log : List Entry) : Option Nat :=
  log.foldl (fun a e => match e with
    | .connect ms => if ms = 0 then none else some (ms * 1000000)
    | _ => a) none

/-- The timeout that was configured when an operation was submitted. -/
def Configured (log : List Entry) (num : Nat) (t : Option Nat) : Prop :=
  ∃ pre post, log = pre ++ .submitted num :: post ∧ configured pre = t

/-- An operation was sent at this time, and the channel was not shut down since. -/
def SentAt (log : List Entry) (num : Nat) (t : Nat) : Prop :=
  ∃ pre post, log = pre ++ .sent num t :: post ∧ .down ∉ post

/-- An operation was submitted and is not complete. -/
def Open (log : List Entry) (num : Nat) : Prop := .submitted num ∈ log ∧ ∀ r t, .done num r t ∉ log

end Mqtt.Timeout311
