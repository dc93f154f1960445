import Verif.Lemmas.Client5Faults

/-!
C55: which acknowledgements complete which operations.
-/
namespace Mqtt.Props
open Mqtt.Client5 Mqtt.V5

/-- Operations are completed by acknowledgements for them. -/
def AckInv (c : Client) : Prop :=
  ∀ u p e a, .completed u p e (some a) ∈ c.ops.log → requiresAck p = true ∧ Answers a p

theorem AckInv.same {c : Client} (h : AckInv c) {s : OpState} {k : Control} {new : List Effect}
    (hl : s.log = c.ops.log ++ new) (hn : ∀ u p e a, .completed u p e (some a) ∉ new) : AckInv ⟨s, k⟩ := by
  intro u p e a hm
  simp only [hl, List.mem_append] at hm
  rcases hm with hm | hm
  · exact h u p e a hm
  · exact absurd hm (hn u p e a)

theorem ack_new (cfg : Config) : AckInv (Client.new cfg) := by intro u p e a hm; cases hm

theorem ack_move {cfg : Config} {c c' : Client} (hi : Inv c) (h : AckInv c) (m : Move cfg c c') : AckInv c' := by
  cases m with
  | control k hk => exact h.same (List.append_nil _).symm (by simp)
  | accept p t hp hs hst => exact h.same rfl (by simp)
  | reject p e hp => exact h.same rfl (by simp)
  | push p hp hst => exact h.same (List.append_nil _).symm (by simp)
  | publish v a hst =>
    obtain ⟨s1, ctl, hs, hl, hx⟩ := onPublish_queue c.ops v a
    rcases hx with hx | hx
    · rw [hx]; exact h.same hl (by simp)
    · rw [hx]
      exact h.same (new := [.delivered v ctl, .pubackQueued s1.nextUid v.packetId])
        (by simp [OpState.queuePuback, hl]) (by simp)
  | invoke ctl hst =>
    rcases invoke_queue c.ops ctl with ⟨id, s1, _, hs, hl, _, _, _, hx⟩ | ⟨_, hs, hl, _⟩
    · rw [hx]
      exact h.same (new := [.invoked ctl (some id), .pubackQueued s1.nextUid id])
        (by simp [OpState.queuePuback, hl]) (by simp)
    · exact h.same hl (by simp)
  | token id hst => exact h.same rfl (by simp)
  | invalid op rest e hq he => exact h.same rfl (by simp)
  | start op rest s ok hq hc he hst hs hf =>
    rcases setCurrent_cases hs with ⟨_, p, n, enc, rfl, _⟩ | ⟨_, op', n, enc, rfl, hb, _⟩
    · exact h.same rfl (by simp)
    · exact h.same rfl (by simp)
  | encode op buf buf' enc r hc he => exact h.same (List.append_nil _).symm (by simp)
  | finish op now s hc hsteps hs =>
    obtain ⟨_, ⟨hr, hid, rfl⟩ | ⟨hr, rfl⟩⟩ := finish_cases hs
    · exact h.same rfl (by simp)
    · exact h.same rfl (by simp)
  | write data => exact h.same rfl (by simp)
  | pinged uid => exact h.same rfl (by simp)
  | unwrite => exact h.same (List.append_nil _).symm (by simp)
  | written e =>
    rw [completeAll_eq]
    exact h.same rfl (by simp [completions])
  | ack id uid op rest e a ht hu hans =>
    obtain ⟨o, ho, hou, hid⟩ := hi.live.tab id uid ht
    obtain ⟨x, y, hx, _, _⟩ := takeUid_split hu
    have hm : op ∈ c.ops.unacked := by rw [hx]; simp
    have hop : op = o := unique_of_map (List.nodup_iff_count.2 hi.held.unackedOnce) _ hm _ ho
      ((takeUid_uid hu).trans hou.symm)
    subst hop
    intro u p e' a' hmem
    simp only [OpState.complete, List.mem_append, List.mem_singleton] at hmem
    rcases hmem with hmem | hmem
    · exact h u p e' a' hmem
    · simp only [Effect.completed.injEq] at hmem
      obtain ⟨rfl, rfl, rfl, hmem⟩ := hmem
      exact ⟨hi.live.acked _ hm, hans hid a' hmem.symm⟩
  | timeout op rest hu ht => exact h.same rfl (by simp)
  | forget uid => exact h.same (List.append_nil _).symm (by simp)
  | fresh hst => exact h.same (List.append_nil _).symm (by simp)
  | disconnection e st hst => exact h.same (onDisconnection_log ..) (by simp [completions])
  | connection settings now hst => exact h.same (onConnection_log ..) (by simp [completions])
  | reset hst => exact h.same (k := c.toStopped.ctl) (resetAll_log ..) (by simp [completions])
  | terminate hst hd => exact h.same (k := c.toTerminated.ctl) (resetAll_log ..) (by simp [completions])

theorem reachable_ack {cfg : Config} {c : Client} (h : Reachable cfg c) : AckInv c :=
  (reachable_inv (P := fun c => Inv c ∧ AckInv c)
    ⟨⟨held_new cfg, live_new cfg, track_new cfg⟩, ack_new cfg⟩
    (fun _ _ ⟨hi, hf⟩ m => ⟨⟨held_move hi.held m, live_move hi.held hi.live m,
      track_move hi.held hi.live hi.track m⟩, ack_move hi hf m⟩) h).2

/-- **C55, partial**: every operation completed by an acknowledgement waits for one and has its packet id; a SUBACK
completes only a SUBSCRIBE, an UNSUBACK only an UNSUBSCRIBE, with as many reason codes as topic filters (missing: a
PUBACK completes only a QoS 1 publish, `C55_violated_puback`). -/
theorem C55_partial {cfg : Config} {c : Client} (h : Reachable cfg c) {u : Nat} {p : Outgoing} {e : Error} {a : Received}
    (hc : .completed u p e (some a) ∈ c.ops.log) : requiresAck p = true ∧ Answers a p := reachable_ack h u p e a hc

/-- **C55 does not hold**: a PUBACK completes a SUBSCRIBE, with success. -/
theorem C55_violated_puback : ∃ cfg c u v a, Reachable cfg c ∧
    .completed u (.subscribe v) .success (some (.puback a)) ∈ c.ops.log := by
  have h : (run {} (Client.new {}) (connectWith {} ++
      [.submit (.subscribe { subscriptions := [{ topicFilter := [97], qos := 1 }] }) 0 false, .service {},
       .packet (.puback { packetId := 1 }) false 1])).test
      (fun c => c.ops.log.contains (.completed 1
        (.subscribe { packetId := 1, subscriptions := [{ topicFilter := [97], qos := 1 }] }) .success
        (some (.puback { packetId := 1 })))) = true := by decide +kernel
  obtain ⟨c, hr, hc⟩ := run_test h
  exact ⟨{}, c, _, _, _, hr, List.contains_iff_mem.1 hc⟩

/-- **C55 does not hold** without undefined behaviour: for a SUBACK with the packet id of a publish, the view of the
publish is read as the view of a SUBSCRIBE. -/
theorem C55_violated_suback : ∃ cfg c e, Reachable cfg c ∧ Enabled c e ∧ Client5.step cfg c e = .error .ub :=
  have h : run {} (Client.new {}) (connectWith {} ++
      [.submit (publishTo [97] 1) 0 false, .service {},
       .packet (.suback { packetId := 1, reasonCodes := [0] }) false 1]) = .fault .ub := by decide +kernel
  have ⟨c, e, hx⟩ := run_new_fault h
  ⟨{}, c, e, hx⟩

/-- Not vacuous: a publish, a subscribe and an unsubscribe are completed by their acknowledgements. -/
example : (run {} (Client.new {}) (connectWith {} ++
    [.submit (publishTo [97] 1) 0 false,
     .submit (.subscribe { subscriptions := [{ topicFilter := [97], qos := 1 }] }) 0 false,
     .submit (.unsubscribe { topicFilters := [[97]] }) 0 false, .service {},
     .packet (.suback { packetId := 2, reasonCodes := [1] }) false 1, .packet (.puback { packetId := 1 }) false 1,
     .packet (.unsuback { packetId := 3, reasonCodes := [0] }) false 1])).test
    (fun c => decide ((c.ops.log.filterMap fun
      | .completed u _ .success (some a) => some (u, ackId a)
      | _ => none) = [(2, some 2), (1, some 1), (3, some 3)])) = true := by decide +kernel

end Mqtt.Props
