import Verif.Lemmas.Client5Fresh
import Verif.Lemmas.Client5Run
import Verif.Lemmas.KernelRfl

/-!
C29: packet ids in flight are unique.
-/
namespace Mqtt.Props
open Mqtt.Client5 Mqtt.V5

/-- No two operations in flight on the present connection carry the same packet id. -/
def DistinctIds (log : List Effect) : Prop :=
  (inFlight log).Pairwise fun a b => packetId a.2 ≠ packetId b.2

/-- **C29, range**: packet ids in flight are between 1 and 65535, never 0. -/
theorem C29_nonzero {cfg : Config} {c : Client} (h : Reachable cfg c) :
    ∀ x ∈ inFlight c.ops.log, 1 ≤ packetId x.2 ∧ packetId x.2 ≤ 65535 := by
  intro x hx
  have hi := reachable_Inv h
  cases hl : live c.ops.log with
  | false => rw [inFlight, hi.track.grounded hl] at hx; cases hx
  | true =>
    rw [inFlight, hi.track.flying hl, List.mem_map] at hx
    obtain ⟨op, ho, rfl⟩ := hx
    exact ⟨hi.live.nonzero hl op ho, hi.live.ids op (by simp [OpState.held, ho])⟩

theorem distinct_of_unacked {c : Client} (hi : Inv c) (h : live c.ops.log = true →
    ∀ a ∈ c.ops.unacked, ∀ b ∈ c.ops.unacked, packetId a.packet = packetId b.packet → a.uid = b.uid) :
    DistinctIds c.ops.log := by
  unfold DistinctIds
  cases hl : live c.ops.log with
  | false => rw [inFlight, hi.track.grounded hl]; exact .nil
  | true =>
    rw [inFlight, hi.track.flying hl, List.pairwise_map]
    have hu : (c.ops.unacked.map (·.uid)).Nodup := List.nodup_iff_count.2 hi.held.unackedOnce
    rw [List.Nodup, List.pairwise_map] at hu
    refine hu.imp_of_mem ?_
    intro a b ha hb hne hid
    exact hne (h hl a ha b hb hid)

/-- **C29, partial**: packet ids in flight are unique until operations have been set up for sending 65535
times, which is when the counter may have come round. -/
theorem C29_partial {cfg : Config} {c : Client} (h : Reachable cfg c) (hb : setUps c.ops.log ≤ 65534) :
    DistinctIds c.ops.log := by
  obtain ⟨hi, hid⟩ := reachable_ids h
  refine distinct_of_unacked hi fun hl a ha b hb' hab => ?_
  refine (hid hb).apart a (by simp [OpState.held, ha]) b (by simp [OpState.held, hb']) ?_ hab
  have := hi.live.nonzero hl a ha
  omega

/-- **C29, partial**: packet ids in flight are unique on every connection on which nothing is resent with a
packet id from an earlier one, no matter how often the counter comes round. -/
theorem C29_fresh_partial {cfg : Config} {c : Client} (h : Reachable cfg c) (hr : ¬Resends c.ops.log) :
    DistinctIds c.ops.log := by
  obtain ⟨hi, hf⟩ := reachable_fresh h
  refine distinct_of_unacked hi fun hl a ha b hb hab => ?_
  have ht := hf.tidy hl hr
  have h1 := ht.tab a ha
  rw [hab, ht.tab b hb] at h1
  exact (Option.some.inj h1).symm

/-! ### The negation -/

/-- A valid subscribe. -/
def subscribeTo (filter : Bytes) : Outgoing := .subscribe { subscriptions := [{ topicFilter := filter, qos := 1 }] }

/-- A subscribe and a publish are sent, the connection is lost. -/
def idStart : List Event :=
  connectWith {} ++ [.submit (subscribeTo [97]) 0 false, .submit (publishTo [97] 1) 0 false, .service {},
    .shutdown .success]

/-- A connection without the old session, on which both are sent again. -/
def idAgain : List Event :=
  [.service {}, .setup none 1, .service {}, .writeComplete .success, .packet (.connack {}) false 1, .service {}]

/-- The state after the connection is lost. -/
def idState (n u : Nat) (log : List Effect) (events : List LEvent) : Client :=
  { ops := {
      unacked := [
        { uid := 1, packet := subscribeTo [97], deadline := 18446744073709551615, size := 9, incomplete := true,
          unacked := true },
        { uid := 2, packet := .publish { packetId := 2, qos := 1, duplicate := true, topic := [97] },
          deadline := 18446744073709551615, size := 6, incomplete := true, unacked := true }]
      nextId := n
      nextUid := u
      tokens := 65534
      stats := { incomplete := 2, incompleteSize := 15, unacked := 2, unackedSize := 15 }
      encoder := { steps := [], resolver := some .disabled }
      pendingWrite := true
      log := log }
    ctl := {
      state := .pendingReconnect
      desired := .connected
      hasConnected := true
      settings := {
        maximumQos := 1, sessionExpiry := 0, receiveMaximumFromServer := 65535
        maximumPacketSizeToServer := 268435460, topicAliasMaximumToServer := 0, topicAliasMaximumToClient := 0
        serverKeepAlive := 0, retainAvailable := true, wildcardSubscriptions := true
        subscriptionIdentifiers := true, sharedSubscriptions := true, rejoinedSession := false, clientId := [] }
      connackDeadline := 10000000001
      nextPing := 18446744073709551615
      events := events } }

/-- The client without log and events. -/
def forgetLog (c : Client) : Client := ⟨{ c.ops with log := [] }, { c.ctl with events := [] }⟩

def forgetRun : Outcome → Outcome
  | .ok c => .ok (forgetLog c)
  | o => o

theorem forgetRun_ok {o : Outcome} {c : Client} (h : forgetRun o = .ok c) : ∃ c', o = .ok c' ∧ forgetLog c' = c := by
  cases o with
  | ok c' => simp only [forgetRun, Outcome.ok.injEq] at h; exact ⟨c', rfl, h⟩
  | fault f => simp [forgetRun] at h
  | impossible => simp [forgetRun] at h

theorem idState_of_forget {c : Client} {n u : Nat} (h : forgetLog c = idState n u [] []) :
    c = idState n u c.ops.log c.ctl.events := by
  rcases c with ⟨⟨⟩, ⟨⟩⟩
  simp only [forgetLog, idState, Client.mk.injEq, OpState.mk.injEq, Control.mk.injEq] at h ⊢
  simp only [h, and_true]

/-- A lost connection later the subscribe has used up one more packet id. -/
theorem idRound (n u : Nat) (l : List Effect) (ev : List LEvent) :
    forgetRun (run {} (idState (n + 1) u l ev) (idAgain ++ [.shutdown .success])) =
      .ok (idState (nextPacketId (n + 1)) (u + 1) [] []) := by kernel_rfl

/-- What is in flight after both have been sent again. -/
theorem idLast (u : Nat) (l : List Effect) (ev : List LEvent) :
    (match run {} (idState 2 u l ev) idAgain with
      | .ok c => (c.ctl.state, c.ops.unacked.map fun op => (op.uid, op.packet))
      | _ => (.stopped, [])) =
    (.connected, [(1, withPacketId (subscribeTo [97]) 2),
      (2, .publish { packetId := 2, qos := 1, duplicate := true, topic := [97] })]) := by kernel_rfl

/-- There are histories to that state. -/
def Gets (n : Nat) : Prop := ∃ u l ev, Reachable {} (idState n u l ev)

theorem gets_next {n : Nat} (h : Gets (n + 1)) : Gets (nextPacketId (n + 1)) := by
  obtain ⟨u, l, ev, hr⟩ := h
  obtain ⟨c, hc, hf⟩ := forgetRun_ok (idRound n u l ev)
  have := idState_of_forget hf
  rw [this] at hc
  exact ⟨_, _, _, run_ok hc hr⟩

theorem gets_start : Gets 3 := by
  have ht : (run {} (Client.new {}) idStart).test (fun c => decide (c = idState 3 3 c.ops.log c.ctl.events)) = true := by
    decide +kernel
  obtain ⟨c, hr, hc⟩ := run_test ht
  rw [decide_eq_true_eq] at hc
  rw [hc] at hr
  exact ⟨_, _, _, hr⟩

theorem gets_up (k : Nat) (hk : k ≤ 65532) : Gets (k + 3) := by
  induction k with
  | zero => exact gets_start
  | succ k ih =>
    have h := gets_next (ih (by omega))
    rwa [show nextPacketId (k + 2 + 1) = k + 1 + 3 by unfold nextPacketId; rw [if_neg (by omega)]] at h

/-- **C29 does not hold** after the counter has come round: with a session the server does not resume, the
subscribe is sent first with the next packet id, although the publish sent after it keeps that id from an
earlier connection. -/
theorem C29_violated : ∃ cfg c a b, Reachable cfg c ∧ inFlight c.ops.log = [a, b] ∧ a.1 ≠ b.1 ∧
    packetId a.2 = packetId b.2 := by
  have h1 : Gets 1 := gets_next (n := 65534) (gets_up 65532 (by omega))
  have h2 : Gets 2 := gets_next (n := 0) h1
  obtain ⟨u, l, ev, hr⟩ := h2
  have hl := idLast u l ev
  cases hrun : run {} (idState 2 u l ev) idAgain with
  | ok c =>
    rw [hrun] at hl
    simp only [Prod.mk.injEq] at hl
    have hc := run_ok hrun hr
    have hi := reachable_Inv hc
    refine ⟨{}, c, (1, withPacketId (subscribeTo [97]) 2),
      (2, .publish { packetId := 2, qos := 1, duplicate := true, topic := [97] }), hc, ?_, by decide, rfl⟩
    rw [inFlight, hi.track.flying (hi.live.up hl.1)]
    exact hl.2
  | fault f => rw [hrun] at hl; cases hl
  | impossible => rw [hrun] at hl; cases hl

/-- Not vacuous: a subscribe and two publishes are in flight with three different packet ids. -/
example : (run {} (Client.new {}) (connectWith {} ++ [.submit (subscribeTo [97]) 0 false,
    .submit (publishTo [97] 1) 0 false, .submit (publishTo [98] 1) 0 false, .service {}])).test
    (fun c => decide ((inFlight c.ops.log).map (fun x => packetId x.2) = [1, 2, 3]) &&
      decide (setUps c.ops.log = 3)) = true := by decide +kernel

end Mqtt.Props
