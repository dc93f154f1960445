import Verif.Lemmas.Client311Spec

/-!
C47: 3.1.1 client: every operation completes exactly once.

For every history of API calls, tasks, packets and channel callbacks up to the first fault (which events end in a fault
is the subject of C53).
-/
namespace Mqtt.Props
open Mqtt.Client311

variable {allowed : Conn → Event → Prop} {c : Conn}

/-- The completion callback of a request is invoked at most once. -/
theorem C47_once (h : Client311.Reachable allowed c) (uid : Nat) : completions c.log uid ≤ 1 := by
  obtain ⟨⟨done, e, hs⟩, _⟩ := h.inv.2
  rw [hs.once]
  split <;> omega

/-- It is only invoked for requests that have been accepted. -/
theorem C47_accepted (h : Client311.Reachable allowed c) {uid : Nat} (hc : completions c.log uid ≠ 0) :
    wasAccepted c.log uid := by
  obtain ⟨⟨done, e, hs⟩, _⟩ := h.inv.2
  rw [hs.acc]
  rw [hs.once] at hc
  split at hc
  · next h => exact h.1
  · exact absurd rfl hc

/-- A request that has been accepted is completed, or it is in exactly one place: in the list of requests that wait for
a connection or the one of requests that wait for an acknowledgement, its task is scheduled, or its callback is about to
be invoked. -/
theorem C47_held (h : Client311.Reachable allowed c) {uid : Nat} (ha : wasAccepted c.log uid) :
    completions c.log uid = 1 ∨ (completions c.log uid = 0 ∧
      c.pending.count uid + c.ongoing.count uid + (c.tasks.map (·.1)).count uid +
        (match c.busy with | .cancelling _ todo _ => todo | _ => []).count uid = 1) := by
  obtain ⟨⟨done, e, hs⟩, _⟩ := h.inv.2
  have hlt := (hs.acc uid).1 ha
  rw [hs.once]
  by_cases hl : uid ∈ c.live
  · refine .inr ⟨by simp [hl], ?_⟩
    have := h.inv.2.live_nodup.count (a := uid)
    rw [if_pos hl] at this
    simp only [Conn.live, List.count_append] at this
    exact this
  · exact .inl (by rw [if_pos ⟨hlt, hl⟩])

/-- When the connection is destroyed every request has been completed. -/
theorem C47_destroyed (h : Client311.Reachable allowed c) (hd : c.destroyed = true) {uid : Nat}
    (ha : wasAccepted c.log uid) : completions c.log uid = 1 := by
  obtain ⟨⟨done, e, hs⟩, _⟩ := h.inv.2
  rw [hs.once, if_pos]
  rw [h.destroyed hd]
  exact ⟨(hs.acc uid).1 ha, by simp⟩

/-- A request that is sent, interrupted, sent again and acknowledged, one that is queued and cancelled by the
destruction of the connection. -/
def C47_history : List Event :=
  [.connect false, .advance, .launch true, .setup .opened, .packet (.connack true), .create (.publish 1) 10,
   .run 0 (.ongoing true 0), .close, .shutdown, .advance, .advance, .attempt true, .setup .opened,
   .packet (.connack true), .run 0 (.ongoing true 0), .packet (.puback 1), .create .unsubscribe 9, .close, .cancel 0, .disconnect,
   .disconnectTask, .shutdown, .advance, .release]

example : (after C47_history).destroyed = true := by decide +kernel
example : completions (after C47_history).log 0 = 1 := by decide +kernel
example : completions (after C47_history).log 1 = 1 := by decide +kernel
example : .accepted 0 1 (.publish 1) 10 ∈ (after C47_history).log := by decide +kernel
example : .accepted 1 2 .unsubscribe 9 ∈ (after C47_history).log := by decide +kernel
/-- After ten events the first request waits for a connection, and is not completed. -/
example : completions (after (C47_history.take 10)).log 0 = 0 ∧ (after (C47_history.take 10)).pending = [0] := by
  decide +kernel

end Mqtt.Props
