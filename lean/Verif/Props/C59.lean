import Verif.Props.C44

/-!
C59: the request-response client does not abort and does not use an operation that has been freed.

`Fault` has the ways to fail: `abort` is a failed `AWS_FATAL_ASSERT` of the client, `manager` a fault of the subscription
manager, and `freed` the use of an operation that is no longer there. `Enabled` says what is required of the user, the
protocol adapter and the event loop.
-/
namespace Mqtt.Props
open Mqtt.RrClient

/-- **C59**: after any history, no event faults. -/
theorem C59 {cfg : RrClient.Config} {c : Client} (h : RrClient.Reachable cfg anything c) {now : Nat} {e : RrClient.Event}
    (he : RrClient.Enabled c now e) : ∃ c', stepAt cfg { c with clock := now } now e = .ok c' := by
  obtain ⟨c', h1, _⟩ := step_ok (reachable_inv h (strict := false) (by simp)) he (by simp)
  exact ⟨c', h1⟩

/-- Every correlation token, stream list and timeout leads to an operation that is there. -/
theorem C59_tables {cfg : RrClient.Config} {c : Client} (h : RrClient.Reachable cfg anything c) (id : Nat)
    (hi : id ∈ c.queue ∨ id ∈ c.timeouts ∨ (∃ t, c.tokens.get t = some id) ∨ (∃ e ∈ c.streams, id ∈ e.2) ∨
      (∃ e ∈ c.wildcards, id ∈ e.2)) : (c.ops.get id).isSome = true := by
  have hinv := reachable_inv h (strict := false) (by simp)
  rcases hi with hi | hi | ⟨t, hi⟩ | ⟨e, he, hi⟩ | ⟨e, he, hi⟩
  · obtain ⟨op, h1, _⟩ := hinv.queue id hi; rw [h1]; rfl
  · obtain ⟨op, _, h1, _⟩ := hinv.timeouts id hi; rw [h1]; rfl
  · obtain ⟨op, _, h1, _⟩ := hinv.tokens t id hi; rw [h1]; rfl
  · obtain ⟨op, h1, _⟩ := hinv.streams e he id hi; rw [h1]; rfl
  · obtain ⟨op, h1, _⟩ := hinv.wildcards e he id hi; rw [h1]; rfl

/-- An operation is freed by at most one task. -/
theorem C59_once {cfg : RrClient.Config} {c : Client} (h : RrClient.Reachable cfg anything c) (id : Nat) :
    c.tasks.count (.destroy id) ≤ 1 := by
  have hi := (reachable_inv h (strict := false) (by simp)).ids id
  unfold IdOk at hi
  simp only [List.nil_append] at hi
  split at hi
  · omega
  · obtain ⟨-, -, hi⟩ := hi
    split at hi
    · rcases hi.2.2 with ⟨h1, -⟩ | ⟨h1, -⟩ | ⟨-, h1, -⟩ <;> omega
    · have := hi.2.destroy
      split at this <;> omega

/-- The faults are there: a stream that was freed is used. -/
example : ∃ c, RrClient.Reachable rrcCfg anything c ∧ stepAt rrcCfg { c with clock := 2 } 2 (.activate 1) = .error .freed := by
  have key : ∃ c, RrClient.Reachable rrcCfg anything c ∧ c.ops.get 1 = none := by
    refine ⟨(play rrcCfg {} [(1, .task {} 0), (1, .openStream [116]), (1, .close 1), (1, .task {} 0)]).getD {}, ?_, ?_⟩
    · exact play_anything .new (h := [(1, .task {} 0), (1, .openStream [116]), (1, .close 1), (1, .task {} 0)])
        (by decide +kernel) (eq_some_getD _ (by decide +kernel))
    · decide +kernel
  obtain ⟨c, h1, h2⟩ := key
  exact ⟨c, h1, by simp only [stepAt, Client.activate, h2]⟩

/-- The response of the history of C44 in which a request is completed twice: the operation is there, and without
references. -/
example : ∃ c op, RrClient.Reachable rrcCfg anything c ∧ RrClient.Enabled c 60000000003 (.publish rrcResponse) ∧
    c.ops.get 2 = some op ∧ op.refs = 0 ∧ c.tokens.get [] = some 2 := by
  have key : ∃ c, RrClient.Reachable rrcCfg anything c ∧ (RrClient.enabled c 60000000003 (.publish rrcResponse) = true ∧
      (c.ops.get 2).map Op.refs = some 0 ∧ c.tokens.get [] = some 2) := by
    refine ⟨(play rrcCfg {} (rrcTwice.take 12)).getD {}, ?_, ?_⟩
    · exact play_anything .new (h := rrcTwice.take 12) (by decide +kernel) (eq_some_getD _ (by decide +kernel))
    · decide +kernel
  obtain ⟨c, h1, h2, h3, h4⟩ := key
  cases hg : c.ops.get 2 with
  | none => rw [hg] at h3; cases h3
  | some op =>
    rw [hg] at h3
    simp only [Option.map_some, Option.some.injEq] at h3
    exact ⟨c, op, h1, enabled_sound h2, hg, h3, h4⟩

end Mqtt.Props
