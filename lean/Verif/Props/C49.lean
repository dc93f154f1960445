import Verif.Lemmas.Client311Order

/-! C49: 3.1.1 client: interrupted operations are retried in submission order. -/
namespace Mqtt.Props
open Mqtt.Client311

variable {allowed : Conn → Event → Prop} {c : Conn}

/-- Requests are numbered in the order in which they are submitted. -/
theorem C49_numbered (h : Client311.Reachable allowed c) {pre post : List Trace} {u id size : Nat} {kind : Kind}
    (e : c.log = pre ++ .accepted u id kind size :: post) : ∀ v, wasAccepted pre v → v < u := h.numbered e

/-- In a history with tasks in order (see `InOrder`), a request is sent on a channel after every request that was
submitted before it and is not completed. -/
theorem C49_partial (h : Client311.Reachable InOrder c) {pre post : List Trace} {u n : Nat} {d : Bool}
    (e : c.log = pre ++ .sent u n d :: post) {v id size : Nat} {kind : Kind} (ho : Outstanding pre v id kind size)
    (hv : v < u) : SentOn pre v n := (h.inLine e).1 v id kind size ho hv

/-- In such a history the requests are sent on each channel in the order in which they were submitted. -/
theorem C49_partial_sorted (h : Client311.Reachable InOrder c) {pre post : List Trace} {u n : Nat} {d : Bool}
    (e : c.log = pre ++ .sent u n d :: post) {v : Nat} (hv : SentOn pre v n) : v < u := (h.inLine e).2 v hv

/-- A request has been sent when the connection is lost, another is waiting in a task. The task is cancelled before the
channel is shut down; the second request becomes pending before the first. -/
def C49_history : List Event :=
  [.connect false, .advance, .launch true, .setup .opened, .packet (.connack true), .create (.publish 1) 10,
   .run 0 (.ongoing true 0), .create (.publish 1) 10, .close, .cancel 0, .shutdown, .advance, .advance, .attempt true,
   .setup .opened, .packet (.connack true), .run 0 (.ongoing true 0), .run 0 (.ongoing true 0)]

/-- Operations are sent again in another order than that in which they were submitted, though tasks are run in order. -/
theorem C49_violated : ∃ c, Client311.Reachable (fun _ e => ∀ k, (∀ r, e = .run k r → k = 0) ∧ (e = .cancel k → k = 0)) c ∧
    c.log = [.connecting, .opened 0, .processed 0 (.connack true), .connectionComplete true,
      .accepted 0 1 (.publish 1) 10, .sent 0 0 false, .accepted 1 2 (.publish 1) 10, .interrupted, .opened 1,
      .processed 1 (.connack true), .resumed, .sent 1 1 false, .sent 0 1 true] := by
  have h : Client311.Reachable (fun _ e => (match e with | .run k _ => k == 0 | .cancel k => k == 0 | _ => true) = true)
      (playIf (fun _ e => match e with | .run k _ => k == 0 | .cancel k => k == 0 | _ => true) {} C49_history) :=
    reachable_playIf C49_history .init
  refine ⟨_, h.mono ?_, by decide +kernel⟩
  intro _ e he k
  refine ⟨?_, ?_⟩
  · rintro r rfl
    simpa using he
  · rintro rfl
    simpa using he

/-- The same when both had been sent. -/
def C49_example : List Event :=
  [.connect false, .advance, .launch true, .setup .opened, .packet (.connack true), .create (.publish 1) 10,
   .run 0 (.ongoing true 0), .create (.publish 1) 10, .run 0 (.ongoing true 0), .close, .shutdown, .create .unsubscribe 9,
   .advance, .advance, .attempt true,
   .setup .opened, .packet (.connack true), .run 0 (.ongoing true 0), .run 0 (.ongoing true 0), .run 0 (.ongoing true 0)]

/-- Events in order, as a test. -/
def C49_inOrder (c : Conn) : Event → Bool
  | .run k _ => k = 0 ∧ c.pending = []
  | .cancel k => k = 0 ∧ c.ongoing = []
  | .shutdown => c.tasks = []
  | .packet (.connack _) => c.state ≠ .connected
  | _ => true

example : ∃ c, Client311.Reachable InOrder c ∧ ∃ pre, c.log = pre ++ [.sent 0 1 true, .sent 1 1 true, .sent 2 1 false] := by
  refine ⟨playIf C49_inOrder {} C49_example, (reachable_playIf C49_example .init).mono ?_,
    (playIf C49_inOrder {} C49_example).log.take 13, by decide +kernel⟩
  intro c e he
  unfold C49_inOrder at he
  unfold InOrder
  split at he <;> simp_all

end Mqtt.Props
