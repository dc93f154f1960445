import Verif.Lemmas.AdapterStems
import Verif.Lemmas.AdapterRun

/-! C67: adapter: every accepted operation gets exactly one callback, with its own result. -/
namespace Mqtt.Props
open Mqtt.Adapter

variable {s : Sys}

/-- The callback of an operation is called at most once, and only if the operation was accepted. -/
theorem C67_at_most_once (h : Adapter.Reachable s) (i : Nat) :
    s.ad.log.countP (Note.answersOperation i) ≤ s.ad.log.countP (Note.asksOperation i) ∧
      s.ad.log.countP (Note.asksOperation i) ≤ 1 := by
  have h1 := reachable_opBal h i
  have h2 := asksOperation_le (reachable_ledger h).numbered i
  unfold opBal tally at h1
  unfold tally at h2
  omega

/-- The callback gets the id that the call returned, and a result that comes from the MQTT 5 operation made for that
call; the exceptions are a resubscribe without anything to subscribe to, and the termination of the connection. -/
theorem C67_told (h : Adapter.Reachable s) {i id : Nat} {r : Result} (hf : .finished i id r ∈ s.ad.log) :
    ∃ k k', .accepted i id k ∈ s.ad.log ∧ Becomes k k' ∧ Told k' r s.client.ops.log s.ad.log := by
  obtain ⟨k', ⟨k, h1, h2⟩, h3⟩ := (reachable_stems h).told i id r hf
  exact ⟨k, k', h1, h2, h3⟩

/-- An operation that has not been answered waits for its task, or the MQTT 5 operation made for it is not complete. -/
theorem C67_not_lost (h : Adapter.Reachable s) {i id : Nat} {k : Kind} (hc : .accepted i id k ∈ s.ad.log)
    (ha : ∀ r, .finished i id r ∉ s.ad.log) :
    .submit id ∈ s.ad.tasks ∨ ∃ k' u, Becomes k k' ∧ Sent k' u s.client.ops.log ∧
      ∀ p e ack, .completed u p e ack ∉ s.client.ops.log := by
  have hg := reachable_good h
  have hs := reachable_stems h
  have h1 := reachable_opBal h i
  have unique := fun {id' k'} => accepted_unique (id' := id') (k' := k') (reachable_ledger h).numbered hc
  have h2 : s.ad.log.countP (Note.answersOperation i) = 0 := by
    refine List.countP_eq_zero.2 fun n hn hx => ?_
    cases n <;> simp [Note.answersOperation] at hx
    subst hx
    obtain ⟨k0, ⟨k1, h3, _⟩, _⟩ := hs.told _ _ _ hn
    obtain ⟨rfl, _⟩ := unique h3
    exact ha _ hn
  have h3 := countP_pos (p := Note.asksOperation i) hc (by simp [Note.asksOperation])
  unfold opBal tally entries at h1
  rw [h2] at h1
  have : 0 < s.ad.table.countP fun p => p.2.call == i := by omega
  obtain ⟨⟨id', op⟩, hm, hx⟩ := List.countP_pos_iff.1 this
  have hx : op.call = i := by simpa using hx
  have hget := (AMap.mem_iff_get hg.table.nodup).1 hm
  obtain ⟨k0, h4, h5⟩ := hs.named _ _ hget
  rw [hx] at h4
  obtain ⟨rfl, rfl⟩ := unique h4
  cases hu : op.uid with
  | none => exact .inl ((hg.table.queued _).2 ⟨op, hget, hu⟩)
  | some u =>
    refine .inr ⟨op.kind, u, h5, hs.sent _ _ _ hget hu, fun p e ack hx => ?_⟩
    have := hg.table.running _ _ _ hget hu _ hx
    simp [completes] at this

/-- When the connection has terminated, every operation that was accepted has been answered. -/
theorem C67_terminated (h : Adapter.Reachable s) (ht : .terminated ∈ s.ad.log) {i id : Nat} {k : Kind}
    (hc : .accepted i id k ∈ s.ad.log) : ∃ r, .finished i id r ∈ s.ad.log := by
  refine Classical.byContradiction fun hx => ?_
  have hgone := (reachable_final h).gone ht
  have hg := reachable_good h
  have h1 := reachable_opBal h i
  have h3 := countP_pos (p := Note.asksOperation i) hc (by simp [Note.asksOperation])
  unfold opBal tally entries at h1
  rw [reachable_empty h hgone] at h1
  have : 0 < s.ad.log.countP (Note.answersOperation i) := by
    simp at h1
    omega
  obtain ⟨n, hn, hp⟩ := List.countP_pos_iff.1 this
  cases n <;> simp [Note.answersOperation] at hp
  subst hp
  obtain ⟨_, ⟨_, h4, _⟩, _⟩ := (reachable_stems h).told _ _ _ hn
  obtain ⟨rfl, _⟩ := accepted_unique (reachable_ledger h).numbered hc h4
  exact hx ⟨_, hn⟩

/-- Nothing is called after the connection has terminated. -/
theorem C67_last (h : Adapter.Reachable s) {pre post : List Note} (hl : s.ad.log = pre ++ .terminated :: post) {n : Note}
    (hn : n ∈ post) : n = .attempting := (reachable_final h).last pre post hl n hn

/-- What is accepted is what the call asks for. -/
theorem C67_asked {e : Event} {s' : Sys} (hs : Adapter.step s e = .ok s') {i id : Nat} {k : Kind}
    (hn : .accepted i id k ∈ s'.ad.log) (ho : .accepted i id k ∉ s.ad.log) : e.asks k := by
  have hadd : ∀ k', .accepted i id k ∈ (s.ad.add k').log → k = k' := by
    intro k' hx
    unfold Adapter.add at hx
    split at hx
    · exact absurd hx ho
    · rcases List.mem_append.1 hx with hx | hx
      · exact absurd hx ho
      · have := List.mem_singleton.1 hx
        injection this
  have pub : ∀ {u v}, V5.newPublish u = some v → v = u := by
    intro u v h
    unfold V5.newPublish at h
    split at h
    · cases h
    · split at h
      · cases h
      · exact (Option.some.inj h).symm
  have uns : ∀ {u v}, V5.newUnsubscribe u = some v → v = u := by
    intro u v h
    unfold V5.newUnsubscribe at h
    split at h
    · cases h
    · split at h
      · cases h
      · exact (Option.some.inj h).symm
  have quiet : ∀ {a : Adapter}, (∀ j, tally a (Note.calls j) = tally s.ad (Note.calls j)) →
      (∃ new, a.log = s.ad.log ++ new) → .accepted i id k ∉ a.log := by
    intro a h1 ⟨new, h2⟩ hx
    have := h1 i
    unfold tally at this
    rw [h2, List.countP_append] at this
    rw [h2] at hx
    rcases List.mem_append.1 hx with hx | hx
    · exact ho hx
    · have := countP_pos (p := Note.calls i) hx (by simp [Note.calls])
      omega
  cases e with
  | connect o =>
    simp only [Adapter.step, Adapter.connect] at hs
    split at hs
    · cases hs; exact absurd hn ho
    · split at hs
      · cases hs
      · cases hs
        rcases List.mem_append.1 hn with hx | hx
        · exact absurd hx ho
        · simp at hx
  | disconnect =>
    cases hs
    rcases List.mem_append.1 hn with hx | hx
    · exact absurd hx ho
    · simp at hx
  | publish t p q r =>
    simp only [Adapter.step, Adapter.publish] at hs
    split at hs
    · cases hs; exact absurd hn ho
    · split at hs
      · cases hs; exact absurd hn ho
      · split at hs
        · cases hs
        · rename_i v hv
          cases hs
          rw [hadd _ hn, pub hv]
          rfl
  | subscribe rs m =>
    cases hs
    dsimp only at hn
    unfold Adapter.subscribe at hn
    split at hn
    · exact absurd hn ho
    · split at hn
      · exact absurd hn ho
      · split at hn
        · exact absurd hn ho
        · rename_i v hv
          rw [hadd _ hn, newSubscribe_eq hv]
          rfl
  | resubscribe =>
    cases hs
    exact hadd _ hn
  | unsubscribe f =>
    simp only [Adapter.step, Adapter.unsubscribe] at hs
    split at hs
    · cases hs; exact absurd hn ho
    · split at hs
      · cases hs
      · rename_i v hv
        cases hs
        rw [hadd _ hn, uns hv]
        rfl
  | acquire => cases hs; exact absurd hn ho
  | release =>
    cases hs
    dsimp only at hn
    rw [(release_counts s.ad).log] at hn
    exact absurd hn ho
  | run =>
    cases step_did hs with
    | refused => exact absurd hn ho
    | add _ _ _ h => cases h
    | run t ts _ ht hrun =>
      obtain ⟨_, hran⟩ := runTask_ran hrun
      refine absurd hn (quiet (calls_ran hran).1 ?_)
      rcases ran_goes hran with ⟨new, h1, _⟩ | h1
      · exact ⟨new, h1⟩
      · rw [h1]
        exact ⟨_, List.append_assoc ..⟩
  | client e =>
    cases step_did hs with
    | refused => exact absurd hn ho
    | add _ _ _ h => cases h
    | client e c _ _ =>
      obtain ⟨new, h1, _⟩ := react_goes s c
      exact absurd hn (quiet (react_calls s c) ⟨new, h1⟩)

/-- A publish that has been answered and a subscribe that has not. -/
def C67_mixed : List Event :=
  connected ++ [.publish [97] [1] 0 false, .run, .subscribe [{ filter := [97] }] false, .run, .client (.service {}),
    .client (.writeComplete .success)]

example : ∃ s k k', Adapter.Reachable s ∧ .accepted 1 1 k ∈ s.ad.log ∧ .finished 1 1 { code := .ok } ∈ s.ad.log ∧
    .accepted 2 2 k' ∈ s.ad.log ∧ ∀ r, .finished 2 2 r ∉ s.ad.log := by
  obtain ⟨s, hr, ht⟩ := run_test (allow := fun _ _ => True) (cfg := {}) (es := C67_mixed)
    (t := fun s => decide (.accepted 1 1 (.publish { topic := [97], payload := [1] }) ∈ s.ad.log ∧
      .finished 1 1 { code := .ok } ∈ s.ad.log ∧
      .accepted 2 2 (.subscribe [{ filter := [97] }] { subscriptions := [{ topicFilter := [97], qos := 0 }] } false) ∈ s.ad.log ∧
      s.ad.log.all fun n => !n.answersOperation 2)) (by decide +kernel)
  have ht := of_decide_eq_true ht
  refine ⟨s, _, _, hr, ht.1, ht.2.1, ht.2.2.1, fun r hx => ?_⟩
  have := List.all_eq_true.1 ht.2.2.2 _ hx
  simp [Note.answersOperation] at this

/-- The adapter is released with the subscribe in progress, which is then told so. -/
example : ∃ s, Adapter.Reachable s ∧ .terminated ∈ s.ad.log ∧
    .finished 2 2 { code := .connectionDestroyed, granted := some [([97], 128)] } ∈ s.ad.log := by
  obtain ⟨s, hr, ht⟩ := run_test (allow := fun _ _ => True) (cfg := {}) (es := C67_mixed ++ [.release, .run, .run])
    (t := fun s => decide (.terminated ∈ s.ad.log ∧
      .finished 2 2 { code := .connectionDestroyed, granted := some [([97], 128)] } ∈ s.ad.log)) (by decide +kernel)
  exact ⟨s, hr, of_decide_eq_true ht⟩

end Mqtt.Props
