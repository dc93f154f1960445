import Verif.Lemmas.Client5Log
import Verif.Lemmas.Client5Run

/-!
C27: every operation accepted by the MQTT 5 client completes exactly once.
-/
namespace Mqtt.Props
open Mqtt.Client5 Mqtt.V5

/-- The user has submitted this operation. -/
def Submitted (c : Client) (u : Nat) : Prop := ∃ p, Effect.submitted u p ∈ c.ops.log

/-- Is this a call of the completion callback of the operation? -/
def isCompletion (u : Nat) : Effect → Bool
  | .completed v _ _ _ => v == u
  | _ => false

/-- How often the completion callback of the operation has been called. -/
def timesCompleted (c : Client) (u : Nat) : Nat := c.ops.log.countP (isCompletion u)

/-- The client holds the operation: it is queued, being encoded, waiting for the socket or waiting for
an acknowledgement. -/
def Holds (c : Client) (u : Nat) : Prop :=
  ∃ op, op.uid = u ∧ (op ∈ c.ops.queued ∨ c.ops.current = some op ∨ op ∈ c.ops.writing ∨ op ∈ c.ops.unacked)

/-- The operation could not be encoded and was dropped. -/
def Dropped (c : Client) (u : Nat) : Prop := ∃ p, Effect.dropped u p ∈ c.ops.log

/-- Is this the loss of the operation? -/
def isDrop (u : Nat) : Effect → Bool
  | .dropped v _ => v == u
  | _ => false

theorem holds_iff (c : Client) (u : Nat) : Holds c u ↔ 0 < (c.ops.held.map (·.uid)).count u := by
  rw [List.count_pos_iff]
  simp only [Holds, OpState.held, List.mem_map, List.mem_append, Option.mem_toList]
  constructor
  · rintro ⟨op, rfl, h⟩; exact ⟨op, h, rfl⟩
  · rintro ⟨op, h, rfl⟩; exact ⟨op, rfl, h⟩

theorem gone_count (l : List Effect) (u : Nat) :
    (l.filterMap Effect.gone).count u = l.countP (isCompletion u) + l.countP (isDrop u) := by
  induction l with
  | nil => rfl
  | cons e l ih =>
    cases e <;> simp [List.filterMap_cons, Effect.gone, isCompletion, isDrop, List.countP_cons, List.count_cons, ih] <;> omega

theorem dropped_iff (c : Client) (u : Nat) : Dropped c u ↔ 0 < c.ops.log.countP (isDrop u) := by
  rw [List.countP_pos_iff]
  constructor
  · rintro ⟨p, h⟩; exact ⟨_, h, by simp [isDrop]⟩
  · rintro ⟨e, h, he⟩
    cases e <;> simp [isDrop] at he
    subst he
    exact ⟨_, h⟩

/-- **C27, at most once**: no completion callback is called twice. -/
theorem C27_at_most_once {cfg : Config} {c : Client} (h : Reachable cfg c) (u : Nat) : timesCompleted c u ≤ 1 := by
  have h1 := (reachable_held h).once u
  unfold places at h1
  rw [gone_count] at h1
  unfold born at h1
  unfold timesCompleted
  split at h1 <;> omega

/-- **C27, partial**: at every moment exactly one of the following holds of a submitted operation: its
completion callback has been called, once; the client holds it; it was dropped because it could not be
encoded. The third case is the one the property excludes (`C27_violated`). -/
theorem C27_partial {cfg : Config} {c : Client} (h : Reachable cfg c) {u : Nat} (hs : Submitted c u) :
    (timesCompleted c u = 1 ∧ ¬Holds c u ∧ ¬Dropped c u) ∨
    (timesCompleted c u = 0 ∧ Holds c u ∧ ¬Dropped c u) ∨
    (timesCompleted c u = 0 ∧ ¬Holds c u ∧ Dropped c u) := by
  obtain ⟨p, hp⟩ := hs
  have hlt := submitted_lt h u p hp
  have h1 := (reachable_held h).once u
  unfold places at h1
  rw [gone_count] at h1
  unfold born at h1
  rw [if_pos hlt] at h1
  rw [holds_iff, dropped_iff]
  unfold timesCompleted
  omega

/-- **C27** for histories in which every operation taken from the queue could be encoded. -/
theorem C27_encodable {cfg : Config} {c : Client} (h : Reachable cfg c) (hd : ∀ u, ¬Dropped c u) {u : Nat}
    (hs : Submitted c u) :
    (timesCompleted c u = 1 ∧ ¬Holds c u) ∨ (timesCompleted c u = 0 ∧ Holds c u) := by
  rcases C27_partial h hs with h | h | h
  · exact .inl ⟨h.1, h.2.1⟩
  · exact .inr ⟨h.1, h.2.1⟩
  · exact absurd h.2.2 (hd u)

/-- **C27, termination**: when the client has terminated it holds nothing, and every submitted operation
that was not dropped has been completed exactly once. -/
theorem C27_terminated {cfg : Config} {c : Client} (h : Reachable cfg c) (ht : c.ctl.state = .terminated)
    {u : Nat} : ¬Holds c u ∧ (Submitted c u → ¬Dropped c u → timesCompleted c u = 1) := by
  have h0 : ¬Holds c u := by
    rw [holds_iff, (reachable_held h).ended ht]
    simp
  refine ⟨h0, fun hs hd => ?_⟩
  rcases C27_partial h hs with h | h | h
  · exact h.1
  · exact absurd h.2.1 h0
  · exact absurd h.2.2 hd

/-- A publish with a topic alias the server does not allow, as option validation accepts it. -/
def aliasHistory : List Event :=
  connectWith {} ++ [.submit (publishTo [97] 1 (some 5)) 0 false, .service {}]

/-- **C27 does not hold**: a publish whose topic alias is above the server's maximum is taken from the queue
and neither completed nor held, even after the client has terminated. -/
theorem C27_violated : ∃ cfg c u, Reachable cfg c ∧ c.ctl.state = .terminated ∧ Submitted c u ∧
    timesCompleted c u = 0 ∧ ¬Holds c u := by
  let cfg : Config := { outboundAliases := .manual }
  let es := aliasHistory ++ [.shutdown .success, .setDesired .terminated none, .service {}, .service {}]
  have ht : (run cfg (Client.new cfg) es).test (fun c => decide (c.ctl.state = .terminated) &&
      (c.ops.log.any fun e => match e with | .submitted 1 _ => true | _ => false) &&
      decide (timesCompleted c 1 = 0) && decide ((c.ops.held.map (·.uid)).count 1 = 0)) = true := by
    decide +kernel
  obtain ⟨c, hr, hc⟩ := run_test ht
  simp only [Bool.and_eq_true, decide_eq_true_eq] at hc
  obtain ⟨⟨⟨h1, h2⟩, h3⟩, h4⟩ := hc
  refine ⟨cfg, c, 1, hr, h1, ?_, h3, ?_⟩
  · rw [List.any_eq_true] at h2
    obtain ⟨e, he, hx⟩ := h2
    split at hx
    · exact ⟨_, he⟩
    · cases hx
  · rw [holds_iff, h4]; omega

/-- Not vacuous: a QoS 1 publish is sent, acknowledged and completed; a second one is still held. -/
example : (run {} (Client.new {}) (connectWith {} ++
    [.submit (publishTo [97] 1) 0 false, .service {}, .submit (publishTo [98] 1) 0 false, .writeComplete .success,
      .packet (.puback { packetId := 1 }) false 1])).test
    (fun c => decide (timesCompleted c 1 = 1) && decide (timesCompleted c 2 = 0) &&
      decide (c.ops.held.map (·.uid) = [2])) = true := by decide +kernel

end Mqtt.Props
