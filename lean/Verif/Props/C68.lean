import Verif.Lemmas.AdapterStems
import Verif.Lemmas.AdapterRun

/-! C68: adapter: it lives as long as it is used, then ends, and does not corrupt memory. -/
namespace Mqtt.Props
open Mqtt.Adapter

variable {s : Sys}

/-- The connection is not terminated while the user holds a reference. -/
theorem C68_held (h : Adapter.Reachable s) (ht : .terminated ∈ s.ad.log) : s.ad.external = 0 ∧ s.ad.tasks = [] :=
  ⟨(gone_parts h ((reachable_final h).gone ht)).2.2, (gone_parts h ((reachable_final h).gone ht)).1⟩

/-- The termination callback is called at most once. -/
theorem C68_once (h : Adapter.Reachable s) : s.ad.log.count .terminated ≤ 1 := by
  by_cases ht : .terminated ∈ s.ad.log
  · obtain ⟨x, y, hxy⟩ := List.append_of_mem ht
    have key : ∀ (l : List Note), (∀ pre post, l = pre ++ .terminated :: post → ∀ n ∈ post, n = .attempting) →
        l.count .terminated ≤ 1 := by
      intro l
      induction l with
      | nil => simp
      | cons n l ih =>
        intro hl
        by_cases hn : n = .terminated
        · subst hn
          have h0 : l.count .terminated = 0 := List.count_eq_zero.2 fun hx => by
            have := hl [] l rfl _ hx
            cases this
          simp [h0]
        · have := ih fun pre post he => hl (n :: pre) post (by rw [he]; rfl)
          simp [hn, this]
    exact key _ (reachable_final h).last
  · rw [List.count_eq_zero.2 ht]
    omega

/-- Only tasks run, and only the adapter's. -/
def OnlyTasks (_ : Sys) : Event → Prop
  | .run => True
  | _ => False

/-- When the user has released the connection its tasks bring it to its end, whatever the MQTT 5 client is doing: it is
terminated as soon as they have run, and they do run to the end. -/
theorem C68_ends (h : Adapter.Reachable s) (hx : s.ad.external = 0) :
    ∃ s', Follows OnlyTasks s s' ∧ .terminated ∈ s'.ad.log := by
  have key : ∀ n s1, Follows OnlyTasks s s1 → s1.ad.external = 0 → remaining s1.ad ≤ n →
      ∃ s', Follows OnlyTasks s s' ∧ .terminated ∈ s'.ad.log := by
    intro n
    induction n with
    | zero =>
      intro s1 hf hx hn
      have hr := h.follows hf
      refine ⟨s1, hf, (reachable_final hr).told ?_⟩
      cases hg : s1.ad.gone with
      | true => rfl
      | false =>
        exfalso
        cases hs : Adapter.step s1 .run with
        | ok s2 =>
          have := (run_nearer (reachable_good hr).refs hx hg hs).1
          omega
        | error f =>
          cases ht : s1.ad.tasks with
          | nil => simp [Adapter.step, ht] at hs
          | cons t ts => simp [remaining, ht] at hn
    | succ n ih =>
      intro s1 hf hx hn
      have hr := h.follows hf
      cases hg : s1.ad.gone with
      | true => exact ⟨s1, hf, (reachable_final hr).told hg⟩
      | false =>
        have he : Adapter.Enabled s1 .run := by
          intro ht
          cases (reachable_good hr).refs with
          | fresh _ e => rw [e] at ht; cases ht
          | live _ _ _ e => omega
          | dying ts e => rw [e] at ht; simp at ht
          | dead e => rw [e] at ht; cases ht
          | gone _ _ e => rw [hg] at e; cases e
        cases hs : Adapter.step s1 .run with
        | error f => cases good_fault (reachable_good hr) he hs
        | ok s2 =>
          obtain ⟨h1, h2⟩ := run_nearer (reachable_good hr).refs hx hg hs
          exact ih s2 (.step hf he trivial hs) h2 (by omega)
  exact key _ s .refl hx (Nat.le_refl _)

/-- When an event aborts or has undefined behaviour, `connect()` was called without socket options, or the MQTT 5
client fails by itself (`Client5.Cause`, see C58). The adapter does not otherwise use memory that is freed, does not
dereference NULL and does not fail an assertion. -/
theorem C68_fault_partial (h : Adapter.Reachable s) {e : Event} {f : Client5.Fault} (he : Adapter.Enabled s e)
    (hf : Adapter.step s e = .error f) :
    (∃ o, e = .connect o ∧ o.socketOptions = none) ∨ ∃ e', e = .client e' ∧ Client5.Cause s.cfg s.client e' f := by
  cases good_fault (reachable_good h) he hf with
  | socket o _ h => exact .inl ⟨o, rfl, h⟩
  | client e f h => exact .inr ⟨e, rfl, h⟩

/-- `connect()` without socket options reads through a NULL pointer, though the options were checked. -/
theorem C68_violated_socket : ∃ s o, ReachableIf Exclusive s ∧ Adapter.Enabled s (.connect o) ∧ o.valid = true ∧
    Adapter.step s (.connect o) = .error .ub :=
  ⟨_, { socketOptions := none }, new_reachable {}, by decide, by decide, rfl⟩

/-- The server allows one publish with QoS 1 at a time, and no retained messages. One is sent, and then a retained message
and one more with QoS 1 are published. -/
def C68_retained : List Event :=
  [.run, .connect {}, .run, .client (.service {}), .client (.setup none 1), .client (.service {}), .client (.writeComplete .success),
    .client (.packet (.connack { receiveMaximum := some 1, retainAvailable := some false }) false 1), .publish [97] [] 1 false, .run,
    .client (.service {}), .client (.writeComplete .success), .publish [98] [] 0 true, .run, .publish [99] [] 1 false, .run,
    .client (.service {})]

/-- Operations that the adapter accepts can abort the program in the client's service task. -/
theorem C68_violated_abort : ∃ s e, ReachableIf Exclusive s ∧ Adapter.Enabled s (.client e) ∧
    Adapter.step s (.client e) = .error .abort := by
  have h : (match run Exclusive (Sys.new {}) C68_retained with | .fault .abort => true | _ => false) = true := by
    decide +kernel
  cases hr : run Exclusive (Sys.new {}) C68_retained with
  | ok s => rw [hr] at h; cases h
  | impossible => rw [hr] at h; cases h
  | fault f =>
    rw [hr] at h
    cases f with
    | ub => cases h
    | abort =>
      obtain ⟨s, e, h1, h2, _, h3⟩ := run_fault hr (new_reachable {})
      rcases C68_fault_partial h1.reachable h2 h3 with ⟨o, rfl, ho⟩ | ⟨e', rfl, _⟩
      · have : ∀ f, Adapter.step s (.connect o) = .error f → f = .ub := by
          intro f hf
          simp only [Adapter.step, Adapter.connect] at hf
          split at hf
          · cases hf
          · split at hf
            · cases hf; rfl
            · cases hf
        cases this _ h3
      · exact ⟨s, e', h1, h2, h3⟩

/-- An adapter released with tasks pending. -/
example : ∃ s, Adapter.Reachable s ∧ s.ad.external = 0 ∧ s.ad.tasks.length = 4 ∧ .terminated ∉ s.ad.log := by
  obtain ⟨s, hr, ht⟩ := run_test (allow := fun _ _ => True) (cfg := {}) (es := [.connect {}, .publish [97] [] 1 false, .disconnect, .release])
    (t := fun s => decide (s.ad.external = 0 ∧ s.ad.tasks.length = 4 ∧ .terminated ∉ s.ad.log)) (by decide +kernel)
  exact ⟨s, hr, of_decide_eq_true ht⟩

end Mqtt.Props
