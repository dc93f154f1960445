import Verif.Lemmas.Subs311Log

/-!
C84: the user data of the subscriptions of an MQTT 3.1.1 connection.
-/
namespace Mqtt.Props
open Mqtt Mqtt.Spec Mqtt.TopicTree Mqtt.Subs311

/-- on_cleanup of a topic is called at most once, and nothing that was freed is used. -/
theorem C84_once {c : Conn} {log : List Entry} (h : Subs311.Reachable c log) (u : Nat) :
    log.count (.cleanup u) ≤ 1 ∧ .invalid u ∉ log := by
  have hri := reachable_ri h
  refine ⟨?_, hri.valid u⟩
  by_cases hu : u < c.nextUid
  · rw [hri.cleaned u hu]; split <;> omega
  · rw [List.count_eq_zero.2 (hri.fresh u (by omega)).2]; omega

theorem refs_of_cleanup {c : Conn} {log : List Entry} (h : Subs311.Reachable c log) {u : Nat} (hc : .cleanup u ∈ log) : c.refs u = 0 := by
  have hri := reachable_ri h
  by_cases hu : u < c.nextUid
  · have := hri.cleaned u hu
    have hp := List.count_pos_iff.2 hc
    split at this
    · assumption
    · omega
  · exact absurd hc (hri.fresh u (by omega)).2

/-- When on_cleanup was called, the call was answered and the subscription is not in effect. -/
theorem C84_not_early {c : Conn} {log : List Entry} (h : Subs311.Reachable c log) {u : Nat} (hc : .cleanup u ∈ log) :
    (∀ id fs e, .called id (.subscribe fs) ∈ log → e ∈ fs → e.2.2 = u → ∃ gs ok, .answered id gs ok ∈ log) ∧
    (c.alive = true → ∀ f q, (book tableKey log).subs f ≠ some (u, q)) := by
  have hri := reachable_ri h
  have h0 := refs_of_cleanup h hc
  obtain ⟨leak, l1, _⟩ := hri.count
  have hu := l1 u
  constructor
  · intro id fs e hcall he heu
    rcases hri.pend id fs hcall with ⟨r, hr, _, _, hh⟩ | ha
    · exfalso
      have : u ∈ c.requests.flatMap holds :=
        List.mem_flatMap.2 ⟨r, hr, by rw [hh]; exact List.mem_map.2 ⟨e, he, heu⟩⟩
      have := List.count_pos_iff.2 this
      omega
    · exact ha
  · intro ha f q hf
    have := List.count_pos_iff.2 ((held_iff (reachable_inv h ha) u).2 ⟨f, q, hf⟩)
    omega

/-- After on_cleanup of a topic its on_publish is not called any more. -/
theorem C84_after {c : Conn} {log : List Entry} (h : Subs311.Reachable c log) :
    ∀ pre post u, log = pre ++ .cleanup u :: post → ∀ topic uids, .delivered topic uids ∈ post → u ∉ uids := by
  induction h with
  | init => intro pre post u e; simp at e
  | @step c log e h ha hen ih =>
    intro pre post u hlog topic uids hd hu
    have hmem : ∀ out : List Entry, log ++ out = pre ++ .cleanup u :: post → Entry.delivered topic uids ∉ out → False := by
      intro out hx hno
      rcases List.append_eq_append_iff.1 hx with ⟨a, h1, h2⟩ | ⟨a, h1, h2⟩
      · exact hno (by rw [h2]; simp [hd])
      · cases a with
        | nil => rw [List.nil_append] at h2; exact hno (by rw [← h2]; simp [hd])
        | cons y a =>
          injection h2 with h2 h3
          subst h2
          rw [h3] at hd
          rcases List.mem_append.1 hd with hd | hd
          · exact ih pre a u h1 topic uids hd hu
          · exact hno hd
    by_cases hdel : Entry.delivered topic uids ∈ (Subs311.step c e).2
    · obtain ⟨h1, h2⟩ := step_delivered (reachable_inv h ha) (reachable_ri h) hen hdel
      rw [h1] at hlog
      have hin : Entry.cleanup u ∈ log := by
        have : Entry.cleanup u ∈ log ++ [Entry.delivered topic uids] := by rw [hlog]; simp
        simpa using this
      exact h2 u hu (refs_of_cleanup h hin)
    · exact hmem _ hlog hdel

/-- A topic whose call was answered and whose subscription is not in effect any more was cleaned up, exactly once. Missing:
topics whose SUBSCRIBE could not be made (`C84_violated`). -/
theorem C84_cleaned_partial {c : Conn} {log : List Entry} (h : Subs311.Reachable c log) {id : Nat} {fs : List (Bytes × Nat × Nat)}
    {e : Bytes × Nat × Nat} (hc : .called id (.subscribe fs) ∈ log) (he : e ∈ fs)
    (hdone : (∃ gs ok, .answered id gs ok ∈ log) ∧ (∀ f q, (book tableKey log).subs f ≠ some (e.2.2, q)) ∨ c.alive = false)
    (hlost : ¬ Lost log e.2.2) : log.count (.cleanup e.2.2) = 1 := by
  have hri := reachable_ri h
  have hu := hri.uid id fs e hc he
  rw [hri.cleaned _ hu, if_pos]
  obtain ⟨leak, l1, l2⟩ := hri.count
  have hl : leak e.2.2 = 0 := by
    cases hx : leak e.2.2 with
    | zero => rfl
    | succ n => exact absurd (l2 _ (by omega)) hlost
  have hc0 : c.alive = false → c.refs e.2.2 = 0 := by
    intro hd
    obtain ⟨d1, d2⟩ := reachable_dead h hd
    rw [l1, d1, d2, hl]
    rfl
  cases hal : c.alive with
  | false => exact hc0 hal
  | true =>
    rcases hdone with ⟨⟨gs, ok, hans⟩, hno⟩ | hd
    · have h1 : (held c.table.nodes).count e.2.2 = 0 := by
        rw [List.count_eq_zero, held_iff (reachable_inv h hal)]
        rintro ⟨f, q, hf⟩
        exact hno f q hf
      have h2 : (c.requests.flatMap holds).count e.2.2 = 0 := by
        rw [List.count_eq_zero, List.mem_flatMap]
        rintro ⟨r, hr, hh⟩
        have hk : r.kind = .subscribe := by
          unfold holds at hh
          split at hh
          · assumption
          · cases hh
        obtain ⟨fs', f1, f2⟩ := hri.own r hr hk
        rw [f2, List.mem_map] at hh
        obtain ⟨e', he', heq⟩ := hh
        have := hri.uniq _ _ _ _ e' e f1 hc he' he heq
        rw [← this] at hans
        exact hri.ans r hr gs ok hans
      rw [l1, h1, h2, hl]
    · rw [hal] at hd; cases hd

private def fa : Bytes := [97]
private def bad : Bytes := [36, 115, 104, 97, 114, 101, 47, 103]

/-- A history that meets the hypotheses of `C84_cleaned_partial`, `C84_not_early` and `C84_after`: a message is delivered, then
the filter is unsubscribed, and on_cleanup is called; the next message is not delivered. -/
example : ∃ c log, Subs311.Reachable c log ∧ c.alive = true ∧
    log = [.called 1 (.subscribe [(fa, 0, 0)]), .sent 1 [(some fa, 0)], .answered 1 [(some fa, 0)] true, .delivered fa [0],
      .called 2 (.unsubscribe fa), .sentUnsubscribe 2 fa, .cleanup 0, .unsubscribed 2 true, .delivered fa []] ∧
    (∀ f q, (book tableKey log).subs f ≠ some (0, q)) ∧ ¬ Lost log 0 := by
  have hp : (play ({}, []) [.subscribe [(fa, 0)], .send 1 true, .suback 1 [0], .message fa, .unsubscribe fa, .send 2 true,
      .unsuback 2, .message fa]).map (fun s => (s.2, s.1.alive)) =
      some ([.called 1 (.subscribe [(fa, 0, 0)]), .sent 1 [(some fa, 0)], .answered 1 [(some fa, 0)] true, .delivered fa [0],
      .called 2 (.unsubscribe fa), .sentUnsubscribe 2 fa, .cleanup 0, .unsubscribed 2 true, .delivered fa []], true) := by
    decide +kernel
  obtain ⟨c, h1, h2⟩ := played' hp
  refine ⟨c, _, h1, h2, rfl, ?_, ?_⟩
  · intro f q h
    simp only [book, List.foldl_cons, List.foldl_nil, Book.note, Book.packet, after, List.lookup] at h
    by_cases hf : tableKey fa = some f <;> simp [hf] at h
  · rintro ⟨id, fs, e, _, _, _, h⟩
    simp at h

/-- A subscription that was never sent is cleaned up when the connection is destroyed. -/
example : ∃ c log, Subs311.Reachable c log ∧ c.alive = false ∧
    log = [.called 1 (.subscribe [(fa, 0, 0)]), .answered 1 [(some fa, 0)] false, .cleanup 0] ∧ ¬ Lost log 0 := by
  have hp : (play ({}, []) [.subscribe [(fa, 0)], .destroy]).map (fun s => (s.2, s.1.alive)) =
      some ([.called 1 (.subscribe [(fa, 0, 0)]), .answered 1 [(some fa, 0)] false, .cleanup 0], false) := by decide +kernel
  obtain ⟨c, h1, h2⟩ := played' hp
  refine ⟨c, _, h1, h2, rfl, ?_⟩
  rintro ⟨id, fs, e, _, _, _, h⟩
  simp at h

/-- C84 fails when SUBSCRIBE cannot be made: `a` and `$share/g` are subscribed, the call fails, and even when the connection is
destroyed on_cleanup of `a` was not called. -/
theorem C84_violated : ∃ c log, Subs311.Reachable c log ∧ c.alive = false ∧
    log = [.called 1 (.subscribe [(fa, 0, 0), (bad, 0, 1)]), .unsent 1, .answered 1 [(some fa, 0), (some bad, 0)] false,
      .cleanup 1] ∧ log.count (.cleanup 0) = 0 := by
  have hp : (play ({}, []) [.subscribe [(fa, 0), (bad, 0)], .send 1 true, .destroy]).map (fun s => (s.2, s.1.alive)) =
      some ([.called 1 (.subscribe [(fa, 0, 0), (bad, 0, 1)]), .unsent 1, .answered 1 [(some fa, 0), (some bad, 0)] false,
      .cleanup 1], false) := by decide +kernel
  obtain ⟨c, h1, h2⟩ := played' hp
  exact ⟨c, _, h1, h2, rfl, by decide +kernel⟩

/-- It also fails for one legal filter when no message can be made or it cannot be encoded. -/
theorem C84_violated_write : ∃ c log, Subs311.Reachable c log ∧ c.alive = false ∧
    log = [.called 1 (.subscribe [(fa, 0, 0)]), .unsent 1, .answered 1 [(some fa, 0)] false] ∧ log.count (.cleanup 0) = 0 := by
  have hp : (play ({}, []) [.subscribe [(fa, 0)], .send 1 false, .destroy]).map (fun s => (s.2, s.1.alive)) =
      some ([.called 1 (.subscribe [(fa, 0, 0)]), .unsent 1, .answered 1 [(some fa, 0)] false], false) := by decide +kernel
  obtain ⟨c, h1, h2⟩ := played' hp
  exact ⟨c, _, h1, h2, rfl, by decide +kernel⟩

end Mqtt.Props
