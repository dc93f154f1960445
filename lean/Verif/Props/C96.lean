import Verif.Lemmas.Courtesy311

/-! C96: the DISCONNECT packet of a 3.1.1 connection. -/
namespace Mqtt.Props
open Mqtt.Client311 Mqtt.Courtesy311

/-- **C96, place**: DISCONNECT follows the CONNECT of its channel, and is written once. -/
theorem C96_place {w : World} (h : Courtesy311.Reachable (fun _ _ => True) w) {pre post : List (Nat × Item)} {n : Nat}
    (hw : w.wire = pre ++ (n, .disconnect) :: post) : (n, .connect) ∈ pre ∧ (n, .disconnect) ∉ post := by
  have k := (h.inv (G := False) (S := False) (fun q => q.elim) (fun q => q.elim) (fun q => q.elim)).order pre n post hw
  exact ⟨k.1, k.2.1⟩

/-- **C96, sent**: if the channel is not shutting down yet when the task of disconnect() runs, DISCONNECT has been written before it
has shut down. -/
theorem C96_sent {w w1 w2 : World} (h : Courtesy311.Reachable (fun _ _ => True) w) (hd : w.conn.destroyed = false)
    (he : Courtesy311.Enabled w (.base .disconnectTask) = true) (hcl : w.conn.closing = false) {n : Nat} (hn : w.conn.chan = some n)
    (hs : Courtesy311.step w (.base .disconnectTask) = .ok w1) (hl : Later w1 w2)
    (hsd : Courtesy311.Enabled w2 (.base .shutdown) = true) : (n, .disconnect) ∈ w2.wire := by
  have k := h.inv (G := False) (S := False) (fun q => q.elim) (fun q => q.elim) (fun q => q.elim)
  have hdone : w.done = false := by
    cases q : w.done with
    | false => rfl
    | true => have := (k.done q).2; rw [hcl] at this; cases this
  have hsl : w.conn.slot = true := by
    simp only [Courtesy311.Enabled, Bool.and_eq_true] at he
    exact k.conn.inv.1.task he.1
  have hr := Courtesy311.Reachable.step h hd he trivial hs
  simp only [Courtesy311.step, Client311.step] at hs
  cases hs
  have hp := hl.parting hr (n := n) ⟨hsl, hn, by simp [advance, Conn.runDisconnectTask, hsl],
    by simp [advance, Conn.runDisconnectTask, hsl, hcl, noError], fun q => by simp [advance, hdone] at q⟩
  simp only [Courtesy311.Enabled, Bool.and_eq_true, Bool.or_eq_true, hp.slot] at hsd
  exact hp.wire (by simpa using hsd.2)

/-- No other part of the program shuts the channel down without an error. -/
def Owned (_ : World) (e : Courtesy311.Event) : Prop := e ≠ .gone

/-- **C96, asked**: DISCONNECT is written only after disconnect() has been accepted, before `on_disconnect`. -/
theorem C96_asked {w w' : World} (h : Courtesy311.Reachable Owned w) {e : Courtesy311.Event}
    (he : Courtesy311.Enabled w e = true) (ha : Owned w e) (hs : Courtesy311.step w e = .ok w') {n : Nat} (h0 : (n, .disconnect) ∉ w.wire)
    (h1 : (n, .disconnect) ∈ w'.wire) : w'.conn.state = .disconnecting := by
  have k := h.inv (G := True) (S := False) (fun _ => trivial) (fun _ _ _ q => q) (fun q => q.elim)
  have adv : ∀ {c : Conn} {e : Client311.Event}, Client311.Enabled w.conn e = true → Client311.step w.conn e = .ok c →
      (n, .disconnect) ∈ (advance w c e).wire → False := by
    intro c e he hs hm
    rcases List.mem_append.1 hm with q | q
    · exact h0 q
    · rcases emitted_mem he hs q with ⟨q, _⟩ | ⟨q, _⟩ <;> cases q
  cases e with
  | base e =>
    simp only [Courtesy311.Enabled, Bool.and_eq_true] at he
    simp only [Courtesy311.step] at hs
    split at hs
    · cases hs
    · rename_i c hc
      cases hs
      exact (adv he.1 hc h1).elim
  | begin kind size =>
    simp only [Courtesy311.step] at hs
    split at hs
    · cases hs
    · rename_i c hc
      cases hs
      exact (adv (by simpa only [Courtesy311.Enabled] using he) hc h1).elim
  | finish uid => simp only [Courtesy311.step] at hs; cases hs; exact absurd h1 h0
  | gone => exact absurd rfl ha
  | write =>
    simp only [Courtesy311.Enabled, decide_eq_true_eq] at he
    simp only [Courtesy311.step] at hs
    cases hs
    by_cases hca : w.cause = some true
    · exact k.asked trivial hca he.2.1
    · simp only [hca, if_false, List.append_nil] at h1
      exact absurd h1 h0

/-- Besides, disconnect() is not called while an operation on another thread is between the release of the lock and the scheduling of its
task. -/
def Serial (w : World) (e : Courtesy311.Event) : Prop := e ≠ .gone ∧ (e = .base .disconnect → w.late = [])

/-- **C96, last**: then nothing is written to the channel after DISCONNECT. -/
theorem C96_last_partial {w : World} (h : Courtesy311.Reachable Serial w) {pre post : List (Nat × Item)} {n : Nat}
    (hw : w.wire = pre ++ (n, .disconnect) :: post) : ∀ x ∈ post, x.1 ≠ n :=
  ((h.inv (G := True) (S := True) (fun _ => trivial) (fun _ _ _ q => q.1) (fun _ _ _ q => q.2)).order pre n post hw).2.2 trivial

/-- A history. -/
def runCourtesy (ok : World → Courtesy311.Event → Bool) (w : World) : List Courtesy311.Event → Option World
  | [] => some w
  | e :: es =>
    if w.conn.destroyed = false ∧ Courtesy311.Enabled w e = true ∧ ok w e = true then
      match Courtesy311.step w e with
      | .error _ => none
      | .ok w' => runCourtesy ok w' es
    else none

theorem runCourtesy_reachable {ok : World → Courtesy311.Event → Bool} {allowed : World → Courtesy311.Event → Prop}
    (hok : ∀ w e, ok w e = true → allowed w e) {es : List Courtesy311.Event} {w w' : World} (h : runCourtesy ok w es = some w')
    (hr : Courtesy311.Reachable allowed w) : Courtesy311.Reachable allowed w' := by
  induction es generalizing w with
  | nil => cases h; exact hr
  | cons e es ih =>
    rw [runCourtesy] at h
    split at h
    · rename_i he
      split at h
      · cases h
      · rename_i w1 hs
        exact ih h (.step hr he.1 he.2.1 (hok _ _ he.2.2) hs)
    · cases h

/-- A connection is established. -/
def C96_established : List Courtesy311.Event :=
  [.base (.connect false), .base .advance, .base (.launch true), .base (.setup .opened), .base (.packet (.connack true))]

def serialB (w : World) (e : Courtesy311.Event) : Bool := e ≠ .gone ∧ (e = .base .disconnect → w.late = [])

/-- Not vacuous: a publish on another thread, then disconnect(); the packet of a second connection follows on another channel. -/
example : ∃ w, Courtesy311.Reachable Serial w ∧
    w.wire = [(0, .connect), (0, .packet), (0, .disconnect), (1, .connect), (1, .packet)] := by
  have h : (runCourtesy serialB {} (C96_established ++ [.begin (.publish 1) 9, .finish 0, .base .disconnect,
      .base (.run 0 (.ongoing true 0)), .base .disconnectTask, .write, .base .shutdown, .base .advance] ++ C96_established ++
      [.base (.run 0 (.ongoing true 0))])).any
    (fun w => decide (w.wire = [(0, .connect), (0, .packet), (0, .disconnect), (1, .connect), (1, .packet)])) = true := by
    decide +kernel
  obtain ⟨w, hw, ht⟩ := (Option.any_eq_true _ _).1 h
  exact ⟨w, runCourtesy_reachable (fun _ _ q => by have := of_decide_eq_true q; exact this) hw .init, of_decide_eq_true ht⟩

/-- If the network fails after disconnect() has been called and before its task runs, there is no DISCONNECT. -/
example : (runCourtesy serialB {} (C96_established ++ [.base .disconnect, .base .close, .base .disconnectTask, .write, .base .shutdown])).any
    (fun w => decide (w.wire = [(0, .connect)])) = true := by decide +kernel

/-- **C96 is violated**: a thread is in publish() and has released the lock; disconnect() on another thread is complete up to DISCONNECT
before the first thread schedules its task, which writes PUBLISH after DISCONNECT. -/
theorem C96_violated : ∃ w, Courtesy311.Reachable Owned w ∧ w.wire = [(0, .connect), (0, .disconnect), (0, .packet)] := by
  have h : (runCourtesy (fun _ e => e ≠ .gone) {} (C96_established ++ [.begin (.publish 1) 9, .base .disconnect, .base .disconnectTask,
      .write, .finish 0, .base (.run 0 (.ongoing true 0))])).any
    (fun w => decide (w.wire = [(0, .connect), (0, .disconnect), (0, .packet)])) = true := by decide +kernel
  obtain ⟨w, hw, ht⟩ := (Option.any_eq_true _ _).1 h
  exact ⟨w, runCourtesy_reachable (fun _ _ q => by simpa [Owned] using q) hw .init, of_decide_eq_true ht⟩

end Mqtt.Props
