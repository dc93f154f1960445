import Verif.Lemmas.Client5Order
import Verif.Lemmas.Client5Run

/-!
C28: the order of QoS 1 publishes across reconnects.

Operations are numbered in the order of submission (`C28_numbers`). The log has `encoded u p` when the client has written
out the packet `p` of operation `u`, and `disconnected` when a connection ends.
-/
namespace Mqtt.Props
open Mqtt.Client5 Mqtt.V5

/-- Numbers are given out in the order of submission. -/
theorem C28_numbers {cfg : Config} {c : Client} (h : Reachable cfg c) {a b : List Effect} {u w : Nat} {p q : Outgoing}
    (he : c.ops.log = a ++ .submitted u p :: b) (hw : .submitted w q ∈ a) : w < u := by
  have key := reachable_inv (cfg := cfg)
    (P := fun c => (∀ u p, .submitted u p ∈ c.ops.log → u < c.ops.nextUid) ∧
      Each (fun a x => ∀ u p, x = .submitted u p → ∀ w q, .submitted w q ∈ a → w < u) c.ops.log)
    ⟨by simp [Client.new], Each.nil _⟩ (fun c c' ⟨h1, h2⟩ m => by
      obtain ⟨new, hl, hn, hs, ht⟩ := move_log m
      refine ⟨fun u p hu => ?_, ?_⟩
      · rw [hl] at hu
        rcases List.mem_append.1 hu with hu | hu
        · have := h1 u p hu; omega
        · have := hs u p hu; omega
      · rw [hl]
        refine h2.append fun a x b hab u p hu w q hw => ?_
        subst hu
        cases a with
        | nil =>
          rw [List.append_nil] at hw
          have := h1 w q hw
          have := hs u p (by rw [hab]; simp)
          omega
        | cons y a => exact absurd (by rw [hab]; simp) (ht u p)) h
  exact key.2 a _ b he u p rfl w q hw

/-- **C28, held**: at every moment the QoS 1 publishes that are sent and not acknowledged, the one being written and those
queued are held in the order of submission. -/
theorem C28_held {cfg : Config} {c : Client} (h : Reachable cfg c) :
    (((c.ops.unacked ++ (c.ops.current.toList ++ c.ops.queued)).filter fun op => isQos1 op.packet).map (·.uid)).Pairwise
      (· < ·) := by
  have := (reachable_line h).1.sorted
  rw [OpState.sentOut, OpState.ahead, ← qos1s_append, qos1s, List.filter_map, List.map_map] at this
  exact this

/-- **C28, one connection**: on every connection QoS 1 publishes are sent in the order of submission. -/
theorem C28_connection {cfg : Config} {c : Client} (h : Reachable cfg c) {a m b : List Effect} {u w : Nat}
    {p q : Outgoing} (he : c.ops.log = a ++ .encoded w q :: m ++ .encoded u p :: b) (hp : isQos1 p = true)
    (hq : isQos1 q = true) (hm : .disconnected ∉ m) : w < u :=
  ((reachable_line h).2.2 (a ++ .encoded w q :: m) _ b he u p rfl hp).connection w q ⟨a, m, rfl, hm⟩ hq

/-- **C28, first transmissions**: over all connections, a QoS 1 publish is sent for the first time after all those
submitted earlier that are ever sent. -/
theorem C28_first {cfg : Config} {c : Client} (h : Reachable cfg c) {a b : List Effect} {u w : Nat} {p q : Outgoing}
    (he : c.ops.log = a ++ .encoded u p :: b) (hp : isQos1 p = true)
    (hn : ∀ q, .encoded u q ∈ a → isQos1 q = false) (hw : .encoded w q ∈ a) (hq : isQos1 q = true) : w < u := by
  rcases ((reachable_line h).2.2 a _ b he u p rfl hp).first with ⟨q', h1, h2⟩ | h1
  · rw [hn q' h1] at h2; cases h2
  · exact h1 w q hw hq

/-- **C28, repetition**: a QoS 1 publish that is sent again is the same packet, with the same packet id, and DUP is set. -/
theorem C28_again {cfg : Config} {c : Client} (h : Reachable cfg c) {a b : List Effect} {u : Nat} {p q : Outgoing}
    (he : c.ops.log = a ++ .encoded u p :: b) (hp : isQos1 p = true) (hm : .encoded u q ∈ a) (hq : isQos1 q = true) :
    withoutDup p = withoutDup q ∧ packetId p = packetId q ∧ isDup p = true := by
  obtain ⟨h1, h2⟩ := ((reachable_line h).2.2 a _ b he u p rfl hp).again q hm hq
  refine ⟨h1, ?_, h2⟩
  rw [← packetId_withoutDup p, h1, packetId_withoutDup]

/-- A QoS 1 publish sent for the first time is as submitted, up to its packet id. -/
theorem C28_fresh {cfg : Config} {c : Client} (h : Reachable cfg c) {a b : List Effect} {u : Nat} {p q : Outgoing}
    (he : c.ops.log = a ++ .encoded u p :: b) (hp : isQos1 p = true)
    (hn : ∀ q, .encoded u q ∈ a → isQos1 q = false) (hm : .submitted u q ∈ a) : withPacketId p 0 = q :=
  ((reachable_line h).2.2 a _ b he u p rfl hp).fresh hn q hm

/-- The operation has ended. -/
def Over (log : List Effect) (u : Nat) : Prop :=
  (∃ p e r, .completed u p e r ∈ log) ∨ ∃ p, .dropped u p ∈ log

/-- **C28, repetitions first**: when a QoS 1 publish is sent for the first time, each one sent earlier has ended or has
been sent on this connection. -/
theorem C28_resent_first {cfg : Config} {c : Client} (h : Reachable cfg c) {a b : List Effect} {u w : Nat}
    {p q : Outgoing} (he : c.ops.log = a ++ .encoded u p :: b) (hp : isQos1 p = true)
    (hn : ∀ q, .encoded u q ∈ a → isQos1 q = false) (hw : .encoded w q ∈ a) (hq : isQos1 q = true) :
    Over a w ∨ ∃ x q' y, a = x ++ .encoded w q' :: y ∧ isQos1 q' = true ∧ .disconnected ∉ y := by
  rcases ((reachable_line h).2.2 a _ b he u p rfl hp).resent hn w q hw hq with h1 | ⟨q', ⟨x, y, h1, h2⟩, h3⟩
  · obtain ⟨x, hx, hg⟩ := List.mem_filterMap.1 h1
    cases x <;> simp [Effect.gone] at hg
    · subst hg; exact .inl (.inl ⟨_, _, _, hx⟩)
    · subst hg; exact .inl (.inr ⟨_, hx⟩)
  · exact .inr ⟨x, q', y, h1, h3, h2⟩

/-- **C28, resumption**: when the server accepts a connection and has kept the session, the QoS 1 publishes that have been
sent and not acknowledged are all queued again, in order, before the others. -/
theorem C28_resume {cfg : Config} {c c' : Client} {v : ConnackView} {acquire : Bool} {now : Nat}
    (hs : c.ctl.state = .mqttConnect) (hv : v.sessionPresent = true)
    (h : Client5.step cfg c (.packet (.connack v) acquire now) = .ok c') (hc : c'.ctl.state = .connected) :
    (c'.ops.queued.filter fun op => isQos1 op.packet).map (fun op => (op.uid, op.packet)) =
      ((c.ops.unacked ++ c.ops.queued).filter fun op => isQos1 op.packet).map (fun op => (op.uid, op.packet)) := by
  simp only [Client5.step, Client.onPacket, hs, Client.onConnack] at h
  have keep : ∀ {k : Control} {e : Error}, k.state = .mqttConnect →
      (k.shutdownChannel e).state = .connected → False := by
    intro k e hk hx
    obtain ⟨_, h1 | h1⟩ := shutdownChannel_cases k e
    · rw [h1, hk] at hx; cases hx
    · rw [h1] at hx; cases hx
  have emit : ∀ {k k' : Control} {e : Error}, k.emitFinalConnack e = .ok k' → k'.state = k.state := by
    intro k k' e hk
    unfold Control.emitFinalConnack at hk
    split at hk
    · cases hk
    · cases hk; simp
  split at h
  · split at h
    · cases h
    · rename_i hk
      cases h
      exact (keep ((emit hk).trans hs) hc).elim
  · split at h
    · split at h
      · cases h
      · rename_i hk
        cases h
        exact (keep (emit hk) hc).elim
    · cases h
      have hr : (c.ctl.settings.applyConnack v).rejoinedSession = true := by
        simp [Settings.applyConnack, hv]
      have h1 : qos1s ((c.ops.onConnection cfg (c.ctl.settings.applyConnack v)).queued) =
          qos1s (c.ops.unacked ++ c.ops.queued) := by
        rw [onConnection_queued, qos1s_changeStatsAll, requeued, if_pos hr]
        simp [qos1s_filter_qos1, qos1s_filter_other]
      simp only [qos1s, List.filter_map] at h1
      exact h1

/-- Not vacuous: three publishes, the first acknowledged, the second sent, the third not yet; the connection is lost, a
fourth is submitted; on the resumed session the second is sent again, then the third and the fourth. -/
example : (run { session := .rejoinAlways } (Client.new { session := .rejoinAlways }) (connectWith {} ++
    [.submit (publishTo [97] 1) 0 false, .submit (publishTo [98] 1) 0 false, .service {}, .writeComplete .success,
     .packet (.puback { packetId := 1 }) false 1, .submit (publishTo [99] 1) 0 false, .shutdown (.other 0),
     .submit (publishTo [100] 1) 0 false] ++ [.service { now := 100000000000000 }, .setup none 1, .service {},
       .writeComplete .success, .packet (.connack { sessionPresent := true }) false 1, .service {}])).test
    (fun c => decide ((c.ops.log.filterMap fun
      | .encoded u (.publish v) => some (u, v.packetId, v.duplicate)
      | _ => none) = [(1, 1, false), (2, 2, false), (2, 2, true), (3, 3, false), (4, 4, false)])) = true := by
  decide +kernel

end Mqtt.Props
