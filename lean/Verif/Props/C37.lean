import Verif.Lemmas.Client5Manual
import Verif.Lemmas.Client5Run

/-!
C37: manual acknowledgement of incoming publishes.

The log has `delivered v none` when a publish reaches the user and they leave the acknowledgement to the client,
`delivered v (some ctl)` when they take it over with `aws_mqtt5_client_acquire_publish_acknowledgement` (or take over one
they already hold for the same packet identifier), `invoked ctl (some id)` when `aws_mqtt5_client_invoke_puback` accepts,
`pubackQueued u id` when a PUBACK operation is made and `encoded u (.puback v)` when that operation is written out.
-/
namespace Mqtt.Props
open Mqtt.Client5 Mqtt.V5

/-- **C37, sending**: every PUBACK sent was queued on the same connection, directly behind the delivery of a QoS 1 publish
with its packet identifier whose acknowledgement was not taken over, or directly behind the invocation of a control for
that packet identifier; and it has not been sent before. -/
theorem C37_sent {cfg : Config} {c : Client} (h : Reachable cfg c) {a b : List Effect} {u : Nat} {v : PubackView}
    (he : c.ops.log = a ++ .encoded u (.puback v) :: b) :
    ∃ x y z, a = x ++ y :: .pubackQueued u v.packetId :: z ∧ Causes y v.packetId ∧
      .disconnected ∉ z ∧ ∀ p, .encoded u p ∉ z := by
  obtain ⟨_, hp, ho⟩ := reachable_manual h
  obtain ⟨a1, z, h1, h2, h3⟩ := hp.sent a _ b he u v rfl
  obtain ⟨x, y, h4, h5⟩ := (ho.before a1 (.pubackQueued u v.packetId) (z ++ .encoded u (.puback v) :: b) (by rw [he, h1]; simp)).cause u v.packetId rfl
  exact ⟨x, y, z, by rw [h1, h4]; simp, h5, h2, h3⟩

/-- Every PUBACK operation has its own number. -/
theorem pubackQueued_once {cfg : Config} {c : Client} (h : Reachable cfg c) {a a' b b' : List Effect} {u i i' : Nat}
    (h1 : c.ops.log = a ++ .pubackQueued u i :: b) (h2 : c.ops.log = a' ++ .pubackQueued u i' :: b') : a = a' := by
  have hp := (reachable_manual h).2.1.once
  rcases List.append_eq_append_iff.1 (h1.symm.trans h2) with ⟨m, h3, h4⟩ | ⟨m, h3, h4⟩
  · cases m with
    | nil => simpa using h3.symm
    | cons x m =>
      simp only [List.cons_append, List.cons.injEq] at h4
      refine absurd ?_ (hp a' _ b' h2 u i' rfl i)
      rw [h3, h4.1]; simp
  · cases m with
    | nil => simpa using h3
    | cons x m =>
      simp only [List.cons_append, List.cons.injEq] at h4
      refine absurd ?_ (hp a _ b h1 u i rfl i')
      rw [h3, h4.1]; simp

/-- **C37**: a PUBACK operation is sent at most once. -/
theorem C37_send_once {cfg : Config} {c : Client} (h : Reachable cfg c) {a b : List Effect} {u : Nat} {v w : PubackView}
    (he : c.ops.log = a ++ .encoded u (.puback v) :: b) : .encoded u (.puback w) ∉ b := by
  intro hm
  obtain ⟨b1, b2, rfl⟩ := List.append_of_mem hm
  obtain ⟨x, y, z, h1, _, _, h2⟩ := C37_sent h he
  obtain ⟨x', y', z', h3, _, _, h4⟩ := C37_sent (a := a ++ .encoded u (.puback v) :: b1) (b := b2) (u := u) (v := w) h (by rw [he]; simp)
  have e1 : c.ops.log = (x ++ [y]) ++ .pubackQueued u v.packetId :: (z ++ .encoded u (.puback v) :: (b1 ++ .encoded u (.puback w) :: b2)) := by
    rw [he, h1]; simp
  have e2 : c.ops.log = (x' ++ [y']) ++ .pubackQueued u w.packetId :: (z' ++ .encoded u (.puback w) :: b2) := by
    have := congrArg (· ++ .encoded u (.puback w) :: b2) h3
    simp only [List.append_assoc, List.cons_append] at this
    rw [he, this]; simp
  have hx := pubackQueued_once h e1 e2
  rw [e1, hx] at e2
  have := List.append_cancel_left e2
  simp only [List.cons.injEq] at this
  have hz : z ++ .encoded u (.puback v) :: b1 = z' :=
    List.append_cancel_right (bs := .encoded u (.puback w) :: b2) (by simpa using this.2)
  exact h4 (.puback v) (by rw [← hz]; simp)

/-- **C37, invoking**: a control is accepted at most once, and only on the connection on which the publish whose
acknowledgement it takes over was delivered. -/
theorem C37_invoked {cfg : Config} {c : Client} (h : Reachable cfg c) {a b : List Effect} {ctl id : Nat}
    (he : c.ops.log = a ++ .invoked ctl (some id) :: b) :
    (∃ x v y, a = x ++ .delivered v (some ctl) :: y ∧ v.packetId = id ∧ .disconnected ∉ y) ∧
    ∀ id', .invoked ctl (some id') ∉ a ∧ .invoked ctl (some id') ∉ b := by
  have ho := (reachable_manual h).2.2.before
  obtain ⟨⟨x, v, y, h1, h2, h3, _⟩, h4⟩ := (ho a _ b he).invoked ctl id rfl
  refine ⟨⟨x, v, y, h1, h2, h3⟩, fun id' => ⟨h4 id', fun hm => ?_⟩⟩
  obtain ⟨b1, b2, rfl⟩ := List.append_of_mem hm
  refine ((ho (a ++ .invoked ctl (some id) :: b1) _ b2 (by rw [he]; simp)).invoked ctl id' rfl).2 id ?_
  simp

/-- The PUBACK operation was made by invoking the control. -/
def OnBehalf (log : List Effect) (u ctl : Nat) : Prop :=
  ∃ x id y, log = x ++ .invoked ctl (some id) :: .pubackQueued u id :: y

/-- **C37, taken over**: for every control, that is for every publish whose acknowledgement is taken over, at most one
PUBACK is sent. -/
theorem C37_at_most_one {cfg : Config} {c : Client} (h : Reachable cfg c) {a b a' b' : List Effect} {u u' ctl : Nat}
    {v v' : PubackView} (h1 : c.ops.log = a ++ .encoded u (.puback v) :: b)
    (h2 : c.ops.log = a' ++ .encoded u' (.puback v') :: b')
    (k1 : OnBehalf c.ops.log u ctl) (k2 : OnBehalf c.ops.log u' ctl) : a = a' := by
  have same : u = u' := by
    obtain ⟨x, id, y, hx⟩ := k1
    obtain ⟨x', id', y', hx'⟩ := k2
    rcases List.append_eq_append_iff.1 (hx.symm.trans hx') with ⟨m, h3, h4⟩ | ⟨m, h3, h4⟩
    · cases m with
      | nil => simp at h4; exact h4.2.1.1
      | cons z m =>
        simp only [List.cons_append, List.cons.injEq] at h4
        refine absurd ?_ ((C37_invoked h hx).2 id').2
        rw [h4.2]; simp
    · cases m with
      | nil => simp at h4; exact h4.2.1.1.symm
      | cons z m =>
        simp only [List.cons_append, List.cons.injEq] at h4
        refine absurd ?_ ((C37_invoked h hx').2 id).2
        rw [h4.2]; simp
  subst same
  rcases List.append_eq_append_iff.1 (h1.symm.trans h2) with ⟨m, h3, h4⟩ | ⟨m, h3, h4⟩
  · cases m with
    | nil => simpa using h3.symm
    | cons x m =>
      simp only [List.cons_append, List.cons.injEq] at h4
      refine absurd ?_ (C37_send_once h h1 (w := v'))
      rw [h4.2]; simp
  · cases m with
    | nil => simpa using h3
    | cons x m =>
      simp only [List.cons_append, List.cons.injEq] at h4
      refine absurd ?_ (C37_send_once h h2 (w := v))
      rw [h4.2]; simp

/-- **C37, not taken over, partial**: directly behind the delivery of a QoS 1 publish whose acknowledgement is not taken over,
exactly one PUBACK with its packet identifier is queued - unless the publish is a repetition of one on the same connection
whose acknowledgement the user has taken over and not yet given (missing: that case, `C37_violated_repeated`). -/
theorem C37_automatic_partial {cfg : Config} {c : Client} (h : Reachable cfg c) {a b : List Effect} {v : PublishView}
    (he : c.ops.log = a ++ .delivered v none :: b) (hq : v.qos ≠ 0)
    (hn : ¬ ∃ ctl, Outstanding a ctl v.packetId) :
    ∃ u b', b = .pubackQueued u v.packetId :: b' ∧ ∀ i b'', b' ≠ .pubackQueued u i :: b'' := by
  obtain ⟨_, hp, ho⟩ := reachable_manual h
  rcases ho.behind a v b he hq with ⟨u, b', rfl⟩ | h1
  · refine ⟨u, b', rfl, fun i b'' hb => ?_⟩
    subst hb
    refine hp.once (a ++ [.delivered v none, .pubackQueued u v.packetId]) _ b'' (by rw [he]; simp) u i rfl v.packetId ?_
    simp
  · exact absurd h1 hn

/-- **C37 does not hold** for repetitions: a QoS 1 publish is delivered and not taken over, no PUBACK is queued for it. -/
theorem C37_violated_repeated : ∃ cfg c a v b, Reachable cfg c ∧ c.ops.log = a ++ .delivered v none :: b ∧ v.qos = 1 ∧
    ∀ u id, .pubackQueued u id ∉ c.ops.log := by
  have h : (run {} (Client.new {}) (connectWith {} ++
      [.packet (.publish { topic := [97], qos := 1, packetId := 5 }) true 1,
       .packet (.publish { topic := [97], qos := 1, packetId := 5, duplicate := true }) false 1])).test
      (fun c => c.ops.log.contains (.delivered { topic := [97], qos := 1, packetId := 5, duplicate := true } none) &&
        c.ops.log.all fun | .pubackQueued _ _ => false | _ => true) = true := by decide +kernel
  obtain ⟨c, hr, hc⟩ := run_test h
  simp only [Bool.and_eq_true, List.all_eq_true] at hc
  obtain ⟨a, b, hx⟩ := List.append_of_mem (List.contains_iff_mem.1 hc.1)
  exact ⟨{}, c, a, _, b, hr, hx, rfl, fun u id hm => by simpa using hc.2 _ hm⟩

/-- **C37, taken over**: no PUBACK is queued when a publish whose acknowledgement is taken over is delivered. -/
theorem C37_taken {cfg : Config} {c : Client} (h : Reachable cfg c) {a b : List Effect} {v : PublishView} {ctl : Nat}
    (he : c.ops.log = a ++ .delivered v (some ctl) :: b) : ∀ u id b', b ≠ .pubackQueued u id :: b' := by
  rintro u id b' rfl
  obtain ⟨x, y, h1, h2⟩ := ((reachable_manual h).2.2.before (a ++ [.delivered v (some ctl)]) _ b' (by rw [he]; simp)).cause u id rfl
  have := (List.append_inj' h1 rfl).2
  simp only [List.cons.injEq, and_true] at this
  subst this
  rcases h2 with ⟨_, h2, _⟩ | ⟨_, h2⟩ <;> cases h2

/-- Not vacuous: two publishes, the first one taken over; the PUBACK of the second is sent, then the control is invoked
twice; the first invocation sends a PUBACK, the second does nothing. -/
example : (run {} (Client.new {}) (connectWith {} ++
    [.packet (.publish { topic := [97], qos := 1, packetId := 5 }) true 1,
     .packet (.publish { topic := [97], qos := 1, packetId := 6 }) false 1, .service {},
     .writeComplete .success, .invoke 1, .service {}, .invoke 1])).test
    (fun c => decide ((c.ops.log.filterMap fun
      | .delivered v k => some (0, v.packetId, k)
      | .pubackQueued u id => some (1, id, some u)
      | .encoded u (.puback v) => some (2, v.packetId, some u)
      | .invoked k id => some (3, k, id)
      | _ => none) =
      [(0, 5, some 1), (0, 6, none), (1, 6, some 1), (2, 6, some 1), (3, 1, some 5), (1, 5, some 2), (2, 5, some 2), (3, 1, none)])) = true := by
  decide +kernel

/-- Not vacuous: a control kept across a disconnect is not accepted. -/
example : (run {} (Client.new {}) (connectWith {} ++
    [.packet (.publish { topic := [97], qos := 1, packetId := 5 }) true 1, .shutdown (.other 0), .invoke 1])).test
    (fun c => decide (.disconnected ∈ c.ops.log ∧ .invoked 1 none ∈ c.ops.log)) = true := by
  decide +kernel

end Mqtt.Props
