import Verif.Lemmas.AdapterEnd
import Verif.Lemmas.AdapterRun

/-! C63: adapter: every `connect()` is answered by exactly one `on_connection_complete`. -/
namespace Mqtt.Props
open Mqtt.Adapter

variable {s : Sys}

/-- A call is answered at most once, and only if it was made; calls have different numbers. -/
theorem C63_at_most_once (h : Adapter.Reachable s) (i : Nat) :
    s.ad.log.countP (Note.answersConnect i) ≤ s.ad.log.countP (Note.asksConnect i) ∧
      s.ad.log.countP (Note.asksConnect i) ≤ 1 := by
  have hl := reachable_ledger h
  have h1 := hl.con i
  have h2 := asksConnect_le hl.numbered i
  unfold conBal tally at h1
  unfold tally at h2
  omega

/-- As long as only the adapter starts and stops the client, a call that has not been answered is still carried by its
task, or waits for the client, which is asked to connect. -/
theorem C63_not_lost_partial (h : ReachableIf Exclusive s) {i : Nat} (hc : .connectCalled i ∈ s.ad.log)
    (ha : ∀ code, .connectDone i code ∉ s.ad.log) :
    (∃ o, .connect i o ∈ s.ad.tasks) ∨
      s.ad.onComplete = some i ∧ (s.ad.gone = false → s.ad.state = .firstConnect ∧ s.client.ctl.desired = .connected) := by
  have h1 := exclusive_conBal h i
  have h2 := countP_pos (p := Note.asksConnect i) hc (by simp [Note.asksConnect])
  have h3 : s.ad.log.countP (Note.answersConnect i) = 0 := by
    refine List.countP_eq_zero.2 fun n hn hx => ?_
    cases n <;> simp [Note.answersConnect] at hx
    subst hx
    exact ha _ hn
  unfold conBal tally stored at h1
  rw [h3] at h1
  by_cases hs : s.ad.onComplete = some i
  · refine .inr ⟨hs, fun hg => ?_⟩
    have hd := exclusive_drive h hg
    have hf := hd.first (by rw [hs]; simp)
    exact ⟨hf, hd.up (by rw [hf]; simp)⟩
  · rw [if_neg hs] at h1
    have : 0 < s.ad.tasks.countP (Task.connects i) := by omega
    obtain ⟨t, ht, hx⟩ := List.countP_pos_iff.1 this
    cases t <;> simp [Task.connects] at hx
    subst hx
    exact .inl ⟨_, ht⟩

/-- The task answers the call at once, when the adapter is already connected or connecting, or has the client
connect and the call wait. -/
theorem C63_task {s' : Sys} {i : Nat} {o : ConnectOptions} {ts : List Task} (ht : s.ad.tasks = .connect i o :: ts)
    (hs : Adapter.step s .run = .ok s') :
    if s.ad.state = .stayDisconnected then s'.ad.onComplete = some i ∧ s'.ad.state = .firstConnect ∧
      s'.client.ctl.desired = .connected ∧ .connecting i ∈ s'.ad.log
    else s'.ad.log = s.ad.log ++ [.connectDone i .alreadyConnected] ∧ s'.ad.onComplete = s.ad.onComplete ∧
      s'.ad.state = s.ad.state := by
  simp only [Adapter.step] at hs
  rw [ht] at hs
  dsimp only at hs
  obtain ⟨_, hran⟩ := runTask_ran hs
  have key : ∀ s0 : Sys, if s0.ad.state = .stayDisconnected then (s0.connectTask i o).ad.onComplete = some i ∧
      (s0.connectTask i o).ad.state = .firstConnect ∧ (s0.connectTask i o).client.ctl.desired = .connected ∧
        .connecting i ∈ (s0.connectTask i o).ad.log
    else (s0.connectTask i o).ad.log = s0.ad.log ++ [.connectDone i .alreadyConnected] ∧
      (s0.connectTask i o).ad.onComplete = s0.ad.onComplete ∧ (s0.connectTask i o).ad.state = s0.ad.state := by
    intro s0
    split
    · rename_i h
      rw [connectTask_start h]
      refine ⟨rfl, rfl, ?_, by simp [Adapter.note]⟩
      unfold connectClient
      rw [Client5.setDesired_none]
    · rename_i h
      rw [connectTask_refuse h]
      exact ⟨rfl, rfl, rfl⟩
  cases hran
  have hc := releaseInternal_counts
    (({ s with ad := { s.ad with tasks := ts } } : Sys).connectTask i o).ad
  have := key { s with ad := { s.ad with tasks := ts } }
  dsimp only at this ⊢
  rw [hc.onComplete, hc.state, hc.log]
  exact this

/-- A call that waits is answered as soon as the client reports that it has connected or that it has failed: with
success for the former, and the translated error for the latter. The exception is a failure with
AWS_ERROR_MQTT_CONNECTION_RESET_FOR_ADAPTER_CONNECT, which concerns a connection from before the call. -/
theorem C63_event (h : ReachableIf Exclusive s) {i : Nat} (hg : s.ad.gone = false) (ha : s.ad.attached = true)
    (hi : s.ad.onComplete = some i) {e : Client5.Event} {s' : Sys} (he : Adapter.Enabled s (.client e))
    (hx : Adapter.Exclusive s (.client e)) (hs : Adapter.step s (.client e) = .ok s') {new : List Client5.LEvent}
    (hn : s'.client.ctl.events = s.client.ctl.events ++ new)
    (hd : .success ∈ new ∨ ∃ err, .failure err ∈ new ∧ err ≠ .connectionReset) :
    ∃ code, .connectDone i code ∈ s'.ad.log ∧
      (.success ∈ new ∧ code = .ok ∨ ∃ err, .failure err ∈ new ∧ err ≠ .connectionReset ∧ code = translate err) := by
  have hdr := exclusive_drive h hg
  have hf := hdr.first (by rw [hi]; simp)
  cases step_did hs with
  | refused =>
    have : new = [] := List.append_cancel_left (as := s.client.ctl.events) (by rw [← hn]; simp)
    subst this
    rcases hd with hd | ⟨_, hd, _⟩ <;> cases hd
  | add _ _ _ h => cases h
  | client _ c hstep _ =>
    have hl := Client5.step_life hstep he.1 (fun d v hx' => by
      subst hx'
      have : s.ad.gone = true := hx
      rw [hg] at this
      cases this) (fun hr => by subst hr; exact he.2.elim)
    obtain ⟨_, new', hn', hst, _⟩ := hl.events
    have : new' = new := List.append_cancel_left (hn'.symm.trans hn)
    subst this
    have hdec : ∃ x ∈ new', ∃ c, Decides c x := by
      rcases hd with hd | ⟨err, hd, h2⟩
      · exact ⟨_, hd, .ok, rfl⟩
      · exact ⟨_, hd, translate err, h2, rfl⟩
    obtain ⟨code, ⟨x, hx1, hx2⟩, hm⟩ := react_connect (c := c) ha hn' hf hi
      (fun hx' => hst hx' (hdr.up (by rw [hf]; simp))) hdec
    refine ⟨code, hm, ?_⟩
    cases x with
    | success => exact .inl ⟨hx1, hx2⟩
    | failure err => exact .inr ⟨err, hx1, hx2.1, hx2.2⟩
    | attempting => cases hx2
    | disconnection _ => cases hx2
    | stopped => cases hx2

/-- A call that is neither queued nor stored will not be answered, whatever happens. -/
theorem C63_never (h : Adapter.Reachable s) {i : Nat} (hq : ∀ o, .connect i o ∉ s.ad.tasks) (hi : s.ad.onComplete ≠ some i)
    (hc : .connectCalled i ∈ s.ad.log) (ha : ∀ code, .connectDone i code ∉ s.ad.log) {s' : Sys}
    (hf : Follows (fun _ _ => True) s s') (code : Code) : .connectDone i code ∉ s'.ad.log := by
  have h0 : conBal i s.ad ≤ -1 := by
    have h2 := countP_pos (p := Note.asksConnect i) hc (by simp [Note.asksConnect])
    have h3 : s.ad.log.countP (Note.answersConnect i) = 0 := by
      refine List.countP_eq_zero.2 fun n hn hx => ?_
      cases n <;> simp [Note.answersConnect] at hx
      subst hx
      exact ha _ hn
    have h4 : s.ad.tasks.countP (Task.connects i) = 0 := by
      refine List.countP_eq_zero.2 fun t ht hx => ?_
      cases t <;> simp [Task.connects] at hx
      subst hx
      exact hq _ ht
    unfold conBal tally stored
    rw [h3, h4, if_neg hi]
    omega
  have h1 : conBal i s'.ad ≤ -1 := by
    clear hq hi hc ha
    induction hf with
    | refl => exact h0
    | step _ _ _ hs ih => exact Int.le_trans (conBal_did (step_did hs) i) ih
  intro hx
  have h2 := countP_pos (p := Note.answersConnect i) hx (by simp [Note.answersConnect])
  have h3 := asksConnect_le (reachable_ledger (h.follows hf)).numbered i
  unfold conBal tally stored at h1
  unfold tally at h3
  split at h1 <;> omega

/-- The first attempt fails, and is reported. The client goes on trying, and `connect()` is called again. Now the
client is stopped directly, and `connect()` called a third time. -/
def C63_stopped : List Event :=
  [.run, .connect {}, .run, .client (.service {}), .client (.setup (some (.other 5)) 1), .connect {}, .run,
    .client (.setDesired .stopped none), .client (.service {}), .connect {}, .run]

/-- A call is forgotten when the client is stopped other than by the adapter. -/
theorem C63_violated_stopped : ∃ s, Adapter.Reachable s ∧ s.ad.gone = false ∧ .connectCalled 1 ∈ s.ad.log ∧
    ∀ s', Follows (fun _ _ => True) s s' → ∀ code, .connectDone 1 code ∉ s'.ad.log := by
  obtain ⟨s, hr, ht⟩ := run_test (allow := fun _ _ => True) (cfg := {}) (es := C63_stopped)
    (t := fun s => decide (s.ad.gone = false ∧ s.ad.tasks = [] ∧ s.ad.onComplete = some 2 ∧ .connectCalled 1 ∈ s.ad.log ∧
      s.ad.log.all fun n => !n.answersConnect 1)) (by decide +kernel)
  have ht := of_decide_eq_true ht
  refine ⟨s, hr, ht.1, ht.2.2.2.1, fun s' hf code => ?_⟩
  refine C63_never hr (by rw [ht.2.1]; simp) (by rw [ht.2.2.1]; simp) ht.2.2.2.1 (fun code hx => ?_) hf code
  have := List.all_eq_true.1 ht.2.2.2.2 _ hx
  simp [Note.answersConnect] at this

/-- The adapter is released while it connects. -/
def C63_released : List Event := [.run, .connect {}, .run, .client (.service {}), .release, .run, .run]

/-- A call is not answered when the adapter is released before the client has connected or failed: the adapter
terminates without calling `on_connection_complete`. -/
theorem C63_violated_released : ∃ s, ReachableIf Exclusive s ∧ .terminated ∈ s.ad.log ∧ .connectCalled 0 ∈ s.ad.log ∧
    ∀ s', Follows (fun _ _ => True) s s' → ∀ code, .connectDone 0 code ∉ s'.ad.log := by
  obtain ⟨s, hr, ht⟩ := run_test (allow := Exclusive) (cfg := {}) (es := C63_released)
    (t := fun s => decide (s.ad.gone = true ∧ .terminated ∈ s.ad.log ∧ .connectCalled 0 ∈ s.ad.log ∧
      s.ad.log.all fun n => !n.answersConnect 0)) (by decide +kernel)
  have ht := of_decide_eq_true ht
  have ha : ∀ code, .connectDone 0 code ∉ s.ad.log := fun code hx => by
    have := List.all_eq_true.1 ht.2.2.2 _ hx
    simp [Note.answersConnect] at this
  refine ⟨s, hr, ht.2.1, ht.2.2.1, fun s' hf code => ?_⟩
  have hg : s'.ad.gone = true ∧ ∀ code, .connectDone 0 code ∉ s'.ad.log := by
    induction hf with
    | refl => exact ⟨ht.1, ha⟩
    | step hf he _ hs ih => exact ⟨gone_stays (hr.reachable.follows hf) ih.1 he hs, fun code hx =>
        ih.2 code (gone_silent (hr.reachable.follows hf) ih.1 he hs hx (by simp))⟩
  exact hg.2 code

/-- A call that waits, one that is refused, and one answered. -/
example : ∃ s, ReachableIf Exclusive s ∧ s.ad.onComplete = some 0 ∧ s.ad.attached = true ∧ s.ad.gone = false ∧
    .connectDone 1 .alreadyConnected ∈ s.ad.log ∧ .connectDone 0 .ok ∉ s.ad.log := by
  obtain ⟨s, hr, ht⟩ := run_test (allow := Exclusive) (cfg := {})
    (es := [.run, .connect {}, .connect {}, .run, .client (.service {}), .run])
    (t := fun s => decide (s.ad.onComplete = some 0 ∧ s.ad.attached = true ∧ s.ad.gone = false ∧
      .connectDone 1 .alreadyConnected ∈ s.ad.log ∧ .connectDone 0 .ok ∉ s.ad.log)) (by decide +kernel)
  exact ⟨s, hr, of_decide_eq_true ht⟩

end Mqtt.Props
