import Verif.Lemmas.AdapterEnd
import Verif.Lemmas.AdapterRun

/-! C64: adapter: every `disconnect()` is answered by exactly one `on_disconnect`. -/
namespace Mqtt.Props
open Mqtt.Adapter

variable {s : Sys}

/-- A call is answered at most once, and only if it was made; calls have different numbers. -/
theorem C64_at_most_once (h : Adapter.Reachable s) (i : Nat) :
    s.ad.log.countP (Note.answersDisconnect i) ≤ s.ad.log.countP (Note.asksDisconnect i) ∧
      s.ad.log.countP (Note.asksDisconnect i) ≤ 1 := by
  have hl := reachable_ledger h
  have h1 := hl.dis i
  have h2 := asksDisconnect_le hl.numbered i
  unfold disBal tally at h1
  unfold tally at h2
  omega

/-- A call that has not been answered is still carried by its task, or it is stored until the client has stopped.
Nothing forgets it. -/
theorem C64_not_lost (h : Adapter.Reachable s) {i : Nat} (hc : .disconnectCalled i ∈ s.ad.log)
    (ha : .disconnectDone i ∉ s.ad.log) : .disconnect i ∈ s.ad.tasks ∨ s.ad.onDisconnect = some i := by
  have h1 := (reachable_ledger h).dis i
  have h2 := countP_pos (p := Note.asksDisconnect i) hc (by simp [Note.asksDisconnect])
  have h3 : s.ad.log.countP (Note.answersDisconnect i) = 0 := by
    refine List.countP_eq_zero.2 fun n hn hx => ?_
    cases n <;> simp [Note.answersDisconnect] at hx
    subst hx
    exact ha hn
  unfold disBal tally stored at h1
  rw [h3] at h1
  by_cases hs : s.ad.onDisconnect = some i
  · exact .inr hs
  · rw [if_neg hs] at h1
    have : 0 < s.ad.tasks.countP (Task.disconnects i) := by omega
    obtain ⟨t, ht, hx⟩ := List.countP_pos_iff.1 this
    cases t <;> simp [Task.disconnects] at hx
    subst hx
    exact .inl ht

/-- The task answers the call at once when the adapter is not connecting or connected, or the client is already being
stopped. Otherwise it stops the client and the call is stored. A `connect()` that waits is answered. -/
theorem C64_task {s' : Sys} {i : Nat} {ts : List Task} (ht : s.ad.tasks = .disconnect i :: ts)
    (hs : Adapter.step s .run = .ok s') :
    s'.ad.state = .stayDisconnected ∧
      (if s.ad.state = .stayDisconnected ∨ s.client.ctl.desired = .stopped then .disconnectDone i ∈ s'.ad.log
      else s'.ad.onDisconnect = some i ∧ s'.client.ctl.desired = .stopped) ∧
      ∀ j, s.ad.state = .firstConnect → s.ad.onComplete = some j →
        .connectDone j .connectionShutdown ∈ s'.ad.log ∧ s'.ad.onComplete = none := by
  simp only [Adapter.step] at hs
  rw [ht] at hs
  dsimp only at hs
  obtain ⟨_, hran⟩ := runTask_ran hs
  have hh : ∀ (a : Adapter) j, a.state = .firstConnect → a.onComplete = some j →
      .connectDone j .connectionShutdown ∈ a.halt.log ∧ a.halt.onComplete = none := by
    intro a j h1 h2
    unfold Adapter.halt
    rw [if_pos h1]
    unfold Adapter.completeConnect
    rw [h2]
    exact ⟨by simp [Adapter.note], rfl⟩
  have key : ∀ s0 : Sys, (s0.disconnectTask i).ad.state = .stayDisconnected ∧
      (if s0.ad.state = .stayDisconnected ∨ s0.client.ctl.desired = .stopped then .disconnectDone i ∈ (s0.disconnectTask i).ad.log
      else (s0.disconnectTask i).ad.onDisconnect = some i ∧ (s0.disconnectTask i).client.ctl.desired = .stopped) ∧
      ∀ j, s0.ad.state = .firstConnect → s0.ad.onComplete = some j →
        .connectDone j .connectionShutdown ∈ (s0.disconnectTask i).ad.log ∧ (s0.disconnectTask i).ad.onComplete = none := by
    intro s0
    by_cases h : s0.ad.state = .stayDisconnected
    · rw [disconnectTask_idle h, if_pos (.inl h)]
      exact ⟨h, by simp [Adapter.note], fun j hj => by rw [h] at hj; cases hj⟩
    · by_cases hd : s0.client.ctl.desired = .stopped
      · rw [disconnectTask_stopped h hd, if_pos (.inr hd)]
        refine ⟨rfl, by simp [Adapter.note], fun j h1 h2 => ?_⟩
        obtain ⟨k1, k2⟩ := hh _ j h1 h2
        exact ⟨by simp [Adapter.note, k1], k2⟩
      · rw [disconnectTask_stop h hd, if_neg (fun hx => hx.elim h hd)]
        refine ⟨rfl, ⟨rfl, ?_⟩, fun j h1 h2 => hh _ j h1 h2⟩
        show (s0.client.setDesired .stopped none).ctl.desired = _
        rw [Client5.setDesired_none]
  cases hran
  have hc := releaseInternal_counts
    (({ s with ad := { s.ad with tasks := ts } } : Sys).disconnectTask i).ad
  have := key { s with ad := { s.ad with tasks := ts } }
  dsimp only at this ⊢
  rw [hc.onDisconnect, hc.state, hc.log, hc.onComplete]
  exact this

/-- A call that is stored is answered as soon as the client reports that it has stopped. -/
theorem C64_event {i : Nat} (ha : s.ad.attached = true)
    (hi : s.ad.onDisconnect = some i) {e : Client5.Event} {s' : Sys} (hs : Adapter.step s (.client e) = .ok s')
    {new : List Client5.LEvent} (hn : s'.client.ctl.events = s.client.ctl.events ++ new) (hd : .stopped ∈ new) :
    .disconnectDone i ∈ s'.ad.log := by
  cases step_did hs with
  | refused =>
    have : new = [] := List.append_cancel_left (as := s.client.ctl.events) (by rw [← hn]; simp)
    subst this
    cases hd
  | add _ _ _ h => cases h
  | client _ c hstep _ => exact react_disconnect (c := c) ha hn hi hd

/-- It is also answered when the task of the next `connect()` runs. -/
theorem C64_connect {s' : Sys} {i j : Nat} {o : ConnectOptions} {ts : List Task} (h : Adapter.Reachable s)
    (ht : s.ad.tasks = .connect j o :: ts) (hi : s.ad.onDisconnect = some i) (hs : Adapter.step s .run = .ok s') :
    .disconnectDone i ∈ s'.ad.log := by
  have hst : s.ad.state = .stayDisconnected := Classical.byContradiction fun hx => by
    rw [(reachable_ledger h).quiet hx] at hi
    cases hi
  simp only [Adapter.step] at hs
  rw [ht] at hs
  dsimp only at hs
  obtain ⟨_, hran⟩ := runTask_ran hs
  have key : ∀ s0 : Sys, s0.ad.state = .stayDisconnected → s0.ad.onDisconnect = some i →
      .disconnectDone i ∈ (s0.connectTask j o).ad.log := by
    intro s0 h1 h2
    rw [connectTask_start h1]
    show _ ∈ s0.ad.completeDisconnect.log ++ _
    unfold Adapter.completeDisconnect
    rw [h2]
    simp [Adapter.note]
  cases hran
  have hc := releaseInternal_counts
    (({ s with ad := { s.ad with tasks := ts } } : Sys).connectTask j o).ad
  dsimp only
  rw [hc.log]
  exact key _ hst hi

/-- While a call is stored, and only the adapter starts and stops the client, the client is being stopped, and it has
not stopped yet if it has begun to connect since the last `connect()`. So the report that answers the call is still to
come, except when the client had not yet begun. -/
theorem C64_waits_partial (h : ReachableIf Exclusive s) {i : Nat} (hg : s.ad.gone = false) (ha : s.ad.attached = true)
    (hi : s.ad.onDisconnect = some i) :
    s.client.ctl.desired = .stopped ∧ (attempted s.ad.log = true → s.client.ctl.state ≠ .stopped) := by
  refine ⟨(exclusive_drive h hg).down (by rw [hi]; simp), fun hx hs => ?_⟩
  have := reachable_waits h ha (fun hidle => by rw [hidle.2] at hi; cases hi) hs
  rw [this] at hx
  cases hx

/-- `connect()` and `disconnect()` are called before the client's service task runs. -/
def C64_early : List Event := [.run, .connect {}, .disconnect, .run, .run]

/-- The call is not answered when the client had not begun to connect: the client is stopped already, and reports
nothing. Whatever else happens, even the release of the adapter, `on_disconnect` is not called until the next `connect()`. -/
theorem C64_violated_early : ∃ s, ReachableIf Exclusive s ∧ s.ad.gone = false ∧ s.ad.tasks = [] ∧ .disconnectCalled 1 ∈ s.ad.log ∧
    ∀ s', Follows NoStart s s' → .disconnectDone 1 ∉ s'.ad.log := by
  obtain ⟨s, hr, ht⟩ := run_test (allow := Exclusive) (cfg := {}) (es := C64_early)
    (t := fun s => decide (s.ad.gone = false ∧ s.ad.tasks = [] ∧ .disconnectCalled 1 ∈ s.ad.log ∧
      s.ad.onDisconnect = some 1 ∧ s.ad.state = .stayDisconnected ∧ s.client.ctl.state = .stopped ∧
      s.client.ctl.desired = .stopped ∧ s.client.ctl.channel = false)) (by decide +kernel)
  have ht := of_decide_eq_true ht
  refine ⟨s, hr, ht.1, ht.2.1, ht.2.2.1, fun s' hf => ?_⟩
  have hs : Stuck 1 s := ⟨⟨ht.2.2.2.2.2.1, ht.2.2.2.2.2.2.1, ht.2.2.2.2.2.2.2⟩, ht.2.2.2.2.1, ht.2.2.2.1, by rw [ht.2.1]; simp⟩
  exact (hs.follows hf).silent (hr.reachable.follows hf)

/-- The adapter is released while the connection is being closed. -/
def C64_released : List Event := connected ++ [.disconnect, .run, .release, .run, .run, .client (.service {}),
  .client (.shutdown (.other 3))]

/-- Nor is it answered when the adapter is released before the client has stopped. -/
theorem C64_violated_released : ∃ s, ReachableIf Exclusive s ∧ .terminated ∈ s.ad.log ∧ .disconnectCalled 1 ∈ s.ad.log ∧
    .stopped ∈ s.client.ctl.events ∧ ∀ s', Follows (fun _ _ => True) s s' → .disconnectDone 1 ∉ s'.ad.log := by
  obtain ⟨s, hr, ht⟩ := run_test (allow := Exclusive) (cfg := {}) (es := C64_released)
    (t := fun s => decide (s.ad.gone = true ∧ .terminated ∈ s.ad.log ∧ .disconnectCalled 1 ∈ s.ad.log ∧
      .stopped ∈ s.client.ctl.events ∧ .disconnectDone 1 ∉ s.ad.log)) (by decide +kernel)
  have ht := of_decide_eq_true ht
  refine ⟨s, hr, ht.2.1, ht.2.2.1, ht.2.2.2.1, fun s' hf => ?_⟩
  have hg : s'.ad.gone = true ∧ .disconnectDone 1 ∉ s'.ad.log := by
    induction hf with
    | refl => exact ⟨ht.1, ht.2.2.2.2⟩
    | step hf he _ hs ih => exact ⟨gone_stays (hr.reachable.follows hf) ih.1 he hs, fun hx =>
        ih.2 (gone_silent (hr.reachable.follows hf) ih.1 he hs hx (by simp))⟩
  exact hg.2

/-- A call that waits for a connection to close, and is then answered. -/
def C64_closing : List Event := connected ++ [.disconnect, .run, .client (.service {})]

example : ∃ s, ReachableIf Exclusive s ∧ s.ad.gone = false ∧ s.ad.attached = true ∧ s.ad.onDisconnect = some 1 ∧
    attempted s.ad.log = true := by
  obtain ⟨s, hr, ht⟩ := run_test (allow := Exclusive) (cfg := {}) (es := C64_closing)
    (t := fun s => decide (s.ad.gone = false ∧ s.ad.attached = true ∧ s.ad.onDisconnect = some 1 ∧
      attempted s.ad.log = true)) (by decide +kernel)
  exact ⟨s, hr, of_decide_eq_true ht⟩

example : ∃ s, ReachableIf Exclusive s ∧ s.ad.log = [.connectCalled 0, .connecting 0, .attempting,
      .connectionSuccess, .connectDone 0 .ok, .disconnectCalled 1, .disconnectDone 1, .closed] := by
  obtain ⟨s, hr, ht⟩ := run_test (allow := Exclusive) (cfg := {}) (es := C64_closing ++ [.client (.shutdown (.other 3))])
    (t := fun s => decide (s.ad.log = [.connectCalled 0, .connecting 0, .attempting,
      .connectionSuccess, .connectDone 0 .ok, .disconnectCalled 1, .disconnectDone 1, .closed])) (by decide +kernel)
  exact ⟨s, hr, of_decide_eq_true ht⟩

end Mqtt.Props
