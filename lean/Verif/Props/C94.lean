import Verif.Lemmas.Disconnect311

/-! C94: disconnect() of a 3.1.1 connection on a thread other than the event loop. -/
namespace Mqtt.Props
open Mqtt.Client311 Mqtt.Disconnect311

variable {allowed : World → Disconnect311.Event → Prop} {w w' : World}

/-- Calls that are not overtaken: a call goes on only as long as neither its channel has been shut down nor `on_disconnect` been
called since it was accepted. -/
def InTime (w : World) (e : Disconnect311.Event) : Prop := e = .test ∨ e = .use → w.over = false

/-- **C94, memory**: as long as its channel has not been shut down and `on_disconnect` not been called, a call in progress uses no slot
that is gone; it schedules the task that closes the channel that was there when it was accepted. -/
theorem C94_memory_partial (h : Disconnect311.Reachable allowed w) (he : Disconnect311.Enabled w .use = true)
    (ho : w.over = false) : ∃ w' n, Disconnect311.step w .use = .ok w' ∧ w'.conn.disconnectTask = true ∧ w.aim = some n ∧
      w'.conn.chan = some n := by
  simp only [Disconnect311.Enabled, decide_eq_true_eq] at he
  have h0 : w.call ≠ .none := by simp [he]
  have hsl := h.inv.tested he ho
  have h1 := h.inv.slot h0 ho
  rw [hsl] at h1
  obtain ⟨n, hn⟩ := Option.isSome_iff_exists.1 h1.symm
  simp only [Disconnect311.step, if_pos hsl]
  exact ⟨_, n, rfl, rfl, hn, h.inv.chan h0 ho n hn⟩

/-- **C94, channel**: if all calls are in time, each task to close a channel is scheduled on the channel that was there when its call was
accepted. -/
theorem C94_channel_partial (h : Disconnect311.Reachable InTime w) : ∀ p ∈ w.scheduled, p.2 = some p.1 := by
  induction h with
  | init => simp
  | @step w w' e hr hd he ha hs ih =>
    cases e with
    | base e =>
      simp only [Disconnect311.step] at hs
      split at hs <;> cases hs
      exact ih
    | lock =>
      simp only [Disconnect311.step] at hs
      split at hs <;> cases hs <;> exact ih
    | test => simp only [Disconnect311.step] at hs; cases hs; exact ih
    | use =>
      simp only [Disconnect311.Enabled, decide_eq_true_eq] at he
      simp only [Disconnect311.step] at hs
      split at hs
      · rename_i hsl
        cases hs
        have h0 : w.call ≠ .none := by simp [he]
        have hov := ha (.inr rfl)
        intro p hp
        simp only [List.mem_append] at hp
        rcases hp with hp | hp
        · exact ih p hp
        · have h1 := hr.inv.slot h0 hov
          rw [hsl] at h1
          obtain ⟨n, hn⟩ := Option.isSome_iff_exists.1 h1.symm
          rw [hr.inv.chan h0 hov n hn, hn] at hp
          simp at hp
          rw [hp]
      · cases hs

/-- **C94, task**: a call that is in time goes on to schedule the task if the handler was installed in a channel when it was accepted, and
only then. -/
theorem C94_asked_partial (h : Disconnect311.Reachable allowed w) (he : Disconnect311.Enabled w .test = true)
    (ho : w.over = false) (hs : Disconnect311.step w .test = .ok w') : w'.call = if w.aim.isSome then .tested else .none := by
  simp only [Disconnect311.Enabled, decide_eq_true_eq] at he
  simp only [Disconnect311.step] at hs
  cases hs
  rw [← h.inv.slot (by simp [he]) ho]

/-- A history. -/
def runCall (w : World) : List Disconnect311.Event → Except Fault (Option World)
  | [] => .ok (some w)
  | e :: es =>
    if w.conn.destroyed = false ∧ Disconnect311.Enabled w e = true then
      match Disconnect311.step w e with
      | .error f => .error f
      | .ok w' => runCall w' es
    else .ok none

theorem runCall_reachable {es : List Disconnect311.Event} {w w' : World} (h : runCall w es = .ok (some w'))
    (hr : Disconnect311.Reachable (fun _ _ => True) w) : Disconnect311.Reachable (fun _ _ => True) w' := by
  induction es generalizing w with
  | nil => cases h; exact hr
  | cons e es ih =>
    rw [runCall] at h
    split at h
    · rename_i he
      split at h
      · cases h
      · rename_i w1 hs
        exact ih h (.step hr he.1 he.2 trivial hs)
    · cases h

/-- A connection is established. -/
def established311 : List Disconnect311.Event :=
  [.base (.connect false), .base .advance, .base (.launch true), .base (.setup .opened), .base (.packet (.connack true))]

/-- Not vacuous: a call in time. -/
example : (match runCall {} (established311 ++ [.lock, .test, .use, .base .disconnectTask, .base .shutdown, .base .advance]) with
    | .ok (some w) => decide (w.scheduled = [(0, some 0)] ∧ .disconnected ∈ w.conn.log)
    | _ => false) = true := by
  decide +kernel

/-- The peer closes the connection while `disconnect` is being called: it uses a slot that has been removed. -/
def C94_history : List Disconnect311.Event := established311 ++ [.lock, .test, .base .close, .base .shutdown]

/-- **C94 is violated**: a call of `disconnect` uses a slot that has been removed. -/
theorem C94_memory_violated : ∃ w, Disconnect311.Reachable (fun _ _ => True) w ∧ w.conn.destroyed = false ∧
    Disconnect311.Enabled w .use = true ∧ Disconnect311.step w .use = .error .memory := by
  have h : (match runCall {} C94_history with
    | .ok (some w) => decide (w.conn.destroyed = false ∧ Disconnect311.Enabled w .use = true ∧ w.conn.slot = false)
    | _ => false) = true := by decide +kernel
  split at h
  · rename_i w hw
    have := of_decide_eq_true h
    refine ⟨w, runCall_reachable hw .init, this.1, this.2.1, ?_⟩
    simp [Disconnect311.step, this.2.2]
  · cases h

/-- The peer closes the connection during the call, `on_disconnect` is called and the user connects again; then the call goes on. -/
def C94_history' : List Disconnect311.Event := established311 ++ [.lock, .base .close, .base .shutdown, .base .advance] ++
  established311 ++ [.test, .use, .base .disconnectTask, .base .shutdown, .base .advance]

/-- **C94 is violated**: a call of `disconnect` closes a connection the user established after the call had been answered; the user is
told that it is interrupted. -/
theorem C94_channel_violated : ∃ w l, Disconnect311.Reachable (fun _ _ => True) w ∧ (1, some 0) ∈ w.scheduled ∧
    w.conn.log = l ++ [.interrupted] ∧ .disconnected ∈ l := by
  have h : (match runCall {} C94_history' with
    | .ok (some w) => decide ((1, some 0) ∈ w.scheduled ∧ w.conn.log = w.conn.log.dropLast ++ [.interrupted] ∧
        .disconnected ∈ w.conn.log.dropLast)
    | _ => false) = true := by decide +kernel
  split at h
  · rename_i w hw
    have := of_decide_eq_true h
    exact ⟨w, _, runCall_reachable hw .init, this⟩
  · cases h

end Mqtt.Props
