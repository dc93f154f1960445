import Verif.Lemmas.AdapterEnd
import Verif.Lemmas.AdapterRun

/-! C65: adapter: `on_connection_complete` reports the outcome of an attempt begun after that `connect()`. -/
namespace Mqtt.Props
open Mqtt.Adapter

variable {s : Sys}

/-- A call answered with success: the client has begun to connect after the call was acted upon, and the answer
directly follows `on_connection_success`. (As long as no failure is reported with error code 0.) This holds however the client was used
before, and whatever is done with it directly. -/
theorem C65_success_partial (h : Adapter.Reachable s) (hz : .connectionFailure .ok ∉ s.ad.log) {i : Nat} {pre post : List Note}
    (e : s.ad.log = pre ++ .connectDone i .ok :: post) :
    ∃ x y, pre = x ++ .connecting i :: (y ++ [.connectionSuccess]) ∧ .attempting ∈ y := by
  obtain ⟨b, hb, _⟩ := reachable_fresh h
  rcases hb.past pre i post e with ⟨x, hx⟩ | hx
  · exact absurd (by rw [e, hx]; simp) hz
  · exact hx

/-- What is open, or being opened, when `connect()` is acted upon does not become a connection: it is closed, or will be as
soon as it is set up. -/
theorem C65_reset (h : Adapter.Reachable s) {i : Nat} {o : ConnectOptions} {ts : List Task}
    (ht : s.ad.tasks = .connect i o :: ts) (hst : s.ad.state = .stayDisconnected) {s' : Sys} (hs : Adapter.step s .run = .ok s') :
    s'.client.ctl.state ≠ .mqttConnect ∧ s'.client.ctl.state ≠ .connected ∧
      (s'.client.ctl.state = .connecting → s'.client.ctl.shouldReset = true) := by
  simp only [Adapter.step] at hs
  rw [ht] at hs
  dsimp only at hs
  obtain ⟨_, hran⟩ := runTask_ran hs
  have key : ∀ s0 : Sys, s0.ad.state = .stayDisconnected → s0.client = s.client →
      Client5.Held (s0.connectTask i o).client.ctl := by
    intro s0 h1 h2
    rw [connectTask_start h1]
    show Client5.Held (connectClient s0.client o).ctl
    rw [h2]
    exact connectClient_held (reachable_good h).client.event o
  cases hran
  have hk := key { s with ad := { s.ad with tasks := ts } } hst rfl
  exact ⟨hk.mqtt, hk.up, hk.reset⟩

/-- An attempt is stopped by `disconnect()`, its channel is set up nevertheless, and is being closed when `connect()` is
called again. -/
def C65_stale : List Event :=
  [.run, .connect {}, .run, .client (.service {}), .disconnect, .run, .client (.setup none 1), .connect {}, .run,
    .client (.shutdown (.other 3))]

/-- A failure may be that of an earlier attempt: the second call is answered though no attempt has begun since. -/
theorem C65_violated_failure : ∃ s x y, ReachableIf Exclusive s ∧
    s.ad.log = x ++ .connecting 2 :: y ∧ .attempting ∉ y ∧ ∃ c, .connectDone 2 c ∈ y := by
  obtain ⟨s, hr, ht⟩ := run_test (allow := Exclusive) (cfg := {}) (es := C65_stale)
    (t := fun s => decide (s.ad.log.drop (s.ad.log.findIdx (· == .connecting 2)) = [.connecting 2,
      .connectionFailure (.same (.other 3)), .connectDone 2 (.same (.other 3))])) (by decide +kernel)
  have ht := of_decide_eq_true ht
  refine ⟨s, s.ad.log.take (s.ad.log.findIdx (· == .connecting 2)), [.connectionFailure (.same (.other 3)), .connectDone 2 (.same (.other 3))], hr, ?_, by simp, (.same (.other 3)), by simp⟩
  rw [← ht]
  exact (List.take_append_drop ..).symm

/-- The client was connected by itself before `connect()` is called: its connection is closed and a new one made. -/
def C65_taken : List Event :=
  [.run, .client (.setDesired .connected none)] ++ serve ++ [.connect {}, .run, .client (.shutdown (.other 3)), .client (.service { now := 100000000000 }),
    .client (.service { now := 100000000000 }), .client (.setup none 100000000000), .client (.service { now := 100000000000 }), .client (.writeComplete .success),
    .client (.packet (.connack {}) false 100000000000)]

example : ∃ s pre, Adapter.Reachable s ∧ .connectionFailure .ok ∉ s.ad.log ∧ s.ad.log = pre ++ [.connectDone 0 .ok] ∧
    pre = [.attempting, .connectCalled 0, .connecting 0, .attempting, .connectionSuccess] := by
  obtain ⟨s, hr, ht⟩ := run_test (allow := fun _ _ => True) (cfg := {}) (es := C65_taken)
    (t := fun s => decide (.connectionFailure .ok ∉ s.ad.log ∧ s.ad.log = [.attempting, .connectCalled 0, .connecting 0, .attempting, .connectionSuccess] ++
      [.connectDone 0 .ok])) (by decide +kernel)
  have ht := of_decide_eq_true ht
  exact ⟨s, _, hr, ht.1, ht.2, rfl⟩

end Mqtt.Props
