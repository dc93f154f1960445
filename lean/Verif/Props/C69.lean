import Verif.Lemmas.AdapterDown
import Verif.Lemmas.AdapterRun
import Verif.Props.C64

/-! C69: adapter: after `disconnect()` there is no connection until the next `connect()`. -/
namespace Mqtt.Props
open Mqtt.Adapter

variable {s : Sys}

/-- Once the task of `disconnect()` has run, and until `connect()` is called again, the user hears nothing of attempts
to connect, connections and their loss, whatever the client does and whoever starts it. -/
theorem C69_quiet {s1 s2 : Sys} {i : Nat} {ts : List Task} (ht : s.ad.tasks = .disconnect i :: ts)
    (hts : ∀ t ∈ ts, t.isConnect = false) (hs : Adapter.step s .run = .ok s1) (hf : Follows NoConnect s1 s2) :
    ∃ new, s2.ad.log = s1.ad.log ++ new ∧ ∀ n ∈ new, n.ofConnection = false := by
  obtain ⟨_, new, h1, h2⟩ := Down.follows ⟨(C64_task ht hs).1, ran_disconnect_tasks ht hts hs⟩ hf
  exact ⟨new, h1, fun n hn => (h2 n hn).1⟩

/-- If the adapter was connected or connecting, the task of `disconnect()` leaves the client to be stopped. Until somebody
starts it again, through the adapter or directly, this stays so and the client does not begin to connect. -/
theorem C69_stopped_partial {s1 s2 : Sys} {i : Nat} {ts : List Task} (ht : s.ad.tasks = .disconnect i :: ts)
    (hts : ∀ t ∈ ts, t.isConnect = false) (hst : s.ad.state ≠ .stayDisconnected) (hs : Adapter.step s .run = .ok s1)
    (hf : Follows NoStart s1 s2) :
    s2.client.ctl.desired = .stopped ∧ ∃ new, s2.ad.log = s1.ad.log ++ new ∧ .attempting ∉ new := by
  have hd := ran_disconnect_desired ht hst hs
  obtain ⟨_, ⟨new, h1, h2⟩, h3⟩ := Down.stays ⟨(C64_task ht hs).1, ran_disconnect_tasks ht hts hs⟩ (by rw [hd]; simp) hf
  exact ⟨h3.trans hd, new, h1, fun hx => (h2 _ hx).2.elim (by simp) (by simp)⟩

/-- `connect()` fails, and `disconnect()` is called. -/
def C69_failed : List Event := [.run, .connect {}, .run, .client (.service {}), .client (.setup (some (.other 1)) 1),
  .disconnect, .run]

/-- After a `connect()` that failed, `disconnect()` does not stop the client: the client goes on connecting, and the
connection that it makes stays open though `on_disconnect` was invoked. -/
theorem C69_violated : ∃ s, ReachableIf Exclusive s ∧ .connectDone 0 (.same (.other 1)) ∈ s.ad.log ∧ .disconnectDone 1 ∈ s.ad.log ∧
    ∃ s', Follows NoStart s s' ∧ s'.client.ctl.state = .connected ∧ s'.client.ctl.desired = .connected := by
  obtain ⟨s, hr, ht⟩ := run_test (allow := Exclusive) (cfg := {}) (es := C69_failed)
    (t := fun s => decide (.connectDone 0 (.same (.other 1)) ∈ s.ad.log ∧ .disconnectDone 1 ∈ s.ad.log) &&
      (run NoStart s serve).test fun s' => decide (s'.client.ctl.state = .connected ∧ s'.client.ctl.desired = .connected))
    (by decide +kernel)
  simp only [Bool.and_eq_true, decide_eq_true_eq] at ht
  obtain ⟨⟨h1, h2⟩, h3⟩ := ht
  refine ⟨s, hr, h1, h2, ?_⟩
  cases hx : run NoStart s serve with
  | fault f => rw [hx] at h3; cases h3
  | impossible => rw [hx] at h3; cases h3
  | ok s' =>
    rw [hx] at h3
    exact ⟨s', run_follows hx .refl, of_decide_eq_true h3⟩

/-- This is so whenever the adapter was neither connected nor connecting: the task of `disconnect()` does nothing to the client but
invokes `on_disconnect`. -/
theorem C69_unstopped_violated {s1 : Sys} {i : Nat} {ts : List Task} (ht : s.ad.tasks = .disconnect i :: ts)
    (hst : s.ad.state = .stayDisconnected) (hs : Adapter.step s .run = .ok s1) :
    s1.client = s.client ∧ .disconnectDone i ∈ s1.ad.log := by
  simp only [Adapter.step] at hs
  rw [ht] at hs
  dsimp only at hs
  obtain ⟨_, hran⟩ := runTask_ran hs
  cases hran
  have key : ∀ s0 : Sys, s0.ad.state = .stayDisconnected → (s0.disconnectTask i).client = s0.client ∧
      .disconnectDone i ∈ (s0.disconnectTask i).ad.releaseInternal.log := by
    intro s0 h0
    unfold Sys.disconnectTask
    rw [h0]
    refine ⟨rfl, ?_⟩
    have rel : ∀ a : Adapter, a.releaseInternal.log = a.log := by
      intro a
      unfold Adapter.releaseInternal
      dsimp only
      split <;> rfl
    rw [rel]
    exact List.mem_append_right _ (List.mem_singleton.2 rfl)
  exact key _ hst

/-- Such a `disconnect()`, after a `connect()` that failed. -/
example : ∃ s, ReachableIf Exclusive s ∧ s.ad.tasks = [.disconnect 1] ∧ s.ad.state = .stayDisconnected ∧
    s.client.ctl.desired = .connected := by
  obtain ⟨s, hr, ht⟩ := run_test (allow := Exclusive) (cfg := {}) (es := C69_failed.dropLast)
    (t := fun s => decide (s.ad.tasks = [.disconnect 1] ∧ s.ad.state = .stayDisconnected ∧
      s.client.ctl.desired = .connected)) (by decide +kernel)
  exact ⟨s, hr, of_decide_eq_true ht⟩

/-- A `disconnect()` while connected: one where the theorems above apply. -/
example : ∃ s i, ReachableIf Exclusive s ∧ s.ad.tasks = [.disconnect i] ∧ s.ad.state ≠ .stayDisconnected ∧
    s.client.ctl.state = .connected := by
  obtain ⟨s, hr, ht⟩ := run_test (allow := Exclusive) (cfg := {}) (es := connected ++ [.disconnect])
    (t := fun s => decide (s.ad.tasks = [.disconnect 1] ∧ s.ad.state ≠ .stayDisconnected ∧
      s.client.ctl.state = .connected)) (by decide +kernel)
  exact ⟨s, 1, hr, of_decide_eq_true ht⟩

end Mqtt.Props
