import Verif.Lemmas.Client311Link

/-! C60: 3.1.1 client: a request is sent as a duplicate if and only if it has been sent before. -/
namespace Mqtt.Props
open Mqtt.Client311

variable {allowed : Conn → Event → Prop} {c : Conn}

/-- In a history, `send_request` is told that it is not the first attempt (and sets the flag DUP of a PUBLISH) if and
only if the request has been sent before, on this or another channel. -/
theorem C60_dup (h : Client311.Reachable allowed c) {pre post : List Trace} {uid chan : Nat} {dup : Bool}
    (e : c.log = pre ++ .sent uid chan dup :: post) : dup = true ↔ ∃ m, SentOn pre uid m := h.dup e

/-- A request is sent at most once on a channel. -/
theorem C60_once (h : Client311.Reachable allowed c) {pre post : List Trace} {uid chan : Nat} {dup : Bool}
    (e : c.log = pre ++ .sent uid chan dup :: post) : ¬ SentOn pre uid chan := h.sendOnce e

/-- A request is sent, the connection is lost before the acknowledgement, and it is sent again after the reconnect. -/
def C60_history : List Event :=
  [.connect false, .advance, .launch true, .setup .opened, .packet (.connack true), .create (.publish 1) 10,
   .run 0 (.ongoing true 0), .close, .shutdown, .advance, .advance, .attempt true, .setup .opened,
   .packet (.connack true), .run 0 (.ongoing true 0)]

example : (after C60_history).log = [.connecting, .opened 0, .processed 0 (.connack true), .connectionComplete true,
    .accepted 0 1 (.publish 1) 10, .sent 0 0 false, .interrupted, .opened 1, .processed 1 (.connack true), .resumed,
    .sent 0 1 true] := by decide +kernel

end Mqtt.Props
