import Verif.Lemmas.Adapter

/-!
Ledgers of the adapter: answers given, answers owed by tasks in the queue, answers owed by what is stored,
against calls made.
-/
namespace Mqtt.Adapter

open Mqtt.V5 Mqtt.SubscriptionSet
open Mqtt.Client5 (Config Client LEvent Effect Fault Desired)

/-- The call whose `connect()` this task carries out. -/
def Task.connects (i : Nat) : Task → Bool
  | .connect j _ => j == i
  | _ => false

def Task.disconnects (i : Nat) : Task → Bool
  | .disconnect j => j == i
  | _ => false

/-- Tasks and notes that are tallied. -/
abbrev tally (a : Adapter) (p : Note → Bool) : Nat := a.log.countP p

def stored (o : Option Nat) (i : Nat) : Nat := if o = some i then 1 else 0

/-- Calls to `disconnect()`: answered, queued and stored, less those made. -/
def disBal (i : Nat) (a : Adapter) : Int :=
  tally a (Note.answersDisconnect i) + a.tasks.countP (Task.disconnects i) + stored a.onDisconnect i
    - tally a (Note.asksDisconnect i)

/-- Calls to `connect()`: answered, queued and stored, less those made. -/
def conBal (i : Nat) (a : Adapter) : Int :=
  tally a (Note.answersConnect i) + a.tasks.countP (Task.connects i) + stored a.onComplete i
    - tally a (Note.asksConnect i)

theorem Task.final_connects {t : Task} (h : t.final = true) (i : Nat) : t.connects i = false := by
  cases t <;> first | rfl | cases h

theorem Task.final_disconnects {t : Task} (h : t.final = true) (i : Nat) : t.disconnects i = false := by
  cases t <;> first | rfl | cases h

theorem countP_final {new : List Task} {p : Task → Bool} (h : ∀ t ∈ new, t.final = true)
    (hp : ∀ t, t.final = true → p t = false) : new.countP p = 0 := by
  rw [List.countP_eq_zero]
  intro t ht
  rw [hp t (h t ht)]
  decide

theorem countP_one {α : Type} (p : α → Bool) (x : α) : [x].countP p = if p x then 1 else 0 := by
  simp [List.countP_cons]

theorem disBal_counts {a a' : Adapter} (i : Nat) (h : Counts a a')
    (ht : ∃ new, a'.tasks = a.tasks ++ new ∧ ∀ t ∈ new, t.final = true) : disBal i a' = disBal i a := by
  obtain ⟨new, ht, hn⟩ := ht
  simp [disBal, tally, h.log, h.onDisconnect, ht, countP_final hn fun t h => t.final_disconnects h i]

theorem conBal_counts {a a' : Adapter} (i : Nat) (h : Counts a a')
    (ht : ∃ new, a'.tasks = a.tasks ++ new ∧ ∀ t ∈ new, t.final = true) : conBal i a' = conBal i a := by
  obtain ⟨new, ht, hn⟩ := ht
  simp [conBal, tally, h.log, h.onComplete, ht, countP_final hn fun t h => t.final_connects h i]

/-- A note that is neither a call nor an answer. -/
theorem disBal_note (i : Nat) (a : Adapter) (n : Note) (h : n.asksDisconnect i = false)
    (h' : n.answersDisconnect i = false) : disBal i (a.note n) = disBal i a := by
  simp [disBal, tally, h, h']

theorem conBal_note (i : Nat) (a : Adapter) (n : Note) (h : n.asksConnect i = false)
    (h' : n.answersConnect i = false) : conBal i (a.note n) = conBal i a := by
  simp [conBal, tally, h, h']

theorem disBal_completeDisconnect (i : Nat) (a : Adapter) : disBal i a.completeDisconnect = disBal i a := by
  unfold Adapter.completeDisconnect
  split
  · rfl
  · rename_i j hj
    simp only [disBal, tally, note_log, note_tasks, note_onDisconnect, List.countP_append, countP_one, hj, stored,
      Note.answersDisconnect, Note.asksDisconnect, Option.some.injEq, beq_iff_eq]
    by_cases h : j = i <;> simp [h]
    omega

theorem conBal_completeDisconnect (i : Nat) (a : Adapter) : conBal i a.completeDisconnect = conBal i a := by
  unfold Adapter.completeDisconnect
  split
  · rfl
  · simp [conBal, tally, Note.answersConnect, Note.asksConnect]

theorem conBal_completeConnect (i : Nat) (a : Adapter) (c : Code) : conBal i (a.completeConnect c) = conBal i a := by
  unfold Adapter.completeConnect
  split
  · rfl
  · rename_i j hj
    simp only [conBal, tally, note_log, note_tasks, note_onComplete, List.countP_append, countP_one, hj, stored,
      Note.answersConnect, Note.asksConnect, Option.some.injEq, beq_iff_eq]
    by_cases h : j = i <;> simp [h]
    omega

theorem disBal_completeConnect (i : Nat) (a : Adapter) (c : Code) : disBal i (a.completeConnect c) = disBal i a := by
  unfold Adapter.completeConnect
  split
  · rfl
  · simp [disBal, tally, Note.answersDisconnect, Note.asksDisconnect]

theorem disBal_state (i : Nat) (a : Adapter) (st : AState) : disBal i { a with state := st } = disBal i a := rfl
theorem conBal_state (i : Nat) (a : Adapter) (st : AState) : conBal i { a with state := st } = conBal i a := rfl

theorem disBal_onEvent (i : Nat) (a : Adapter) (e : LEvent) : disBal i (a.onEvent e) = disBal i a := by
  unfold Adapter.onEvent
  cases e with
  | attempting => exact disBal_note i a _ rfl rfl
  | success =>
    dsimp only
    split
    · rfl
    · rw [disBal_state, disBal_completeConnect, disBal_note i a _ rfl rfl]
    · rw [disBal_note i _ _ rfl rfl, disBal_note i a _ rfl rfl]
  | failure e =>
    dsimp only
    split
    · rfl
    · split
      · rfl
      · rw [disBal_state, disBal_completeConnect, disBal_note i a _ rfl rfl]
      · exact disBal_note i a _ rfl rfl
  | disconnection e =>
    dsimp only
    split
    · exact disBal_note i a _ rfl rfl
    · rfl
  | stopped =>
    dsimp only
    rw [disBal_state, disBal_note i _ _ rfl rfl, disBal_completeDisconnect]

theorem conBal_onEvent (i : Nat) (a : Adapter) (e : LEvent) : conBal i (a.onEvent e) = conBal i a := by
  unfold Adapter.onEvent
  cases e with
  | attempting => exact conBal_note i a _ rfl rfl
  | success =>
    dsimp only
    split
    · rfl
    · rw [conBal_state, conBal_completeConnect, conBal_note i a _ rfl rfl]
    · rw [conBal_note i _ _ rfl rfl, conBal_note i a _ rfl rfl]
  | failure e =>
    dsimp only
    split
    · rfl
    · split
      · rfl
      · rw [conBal_state, conBal_completeConnect, conBal_note i a _ rfl rfl]
      · exact conBal_note i a _ rfl rfl
  | disconnection e =>
    dsimp only
    split
    · exact conBal_note i a _ rfl rfl
    · rfl
  | stopped =>
    dsimp only
    rw [conBal_state, conBal_note i _ _ rfl rfl, conBal_completeDisconnect]

theorem overlook_note (a : Adapter) (e : LEvent) : a.overlook e = a ∨ a.overlook e = a.note .attempting := by
  unfold Adapter.overlook
  split
  · exact .inr rfl
  · exact .inl rfl

theorem disBal_overlook (i : Nat) (a : Adapter) (e : LEvent) : disBal i (a.overlook e) = disBal i a := by
  rcases overlook_note a e with h | h <;> rw [h]
  exact disBal_note i a _ rfl rfl

theorem conBal_overlook (i : Nat) (a : Adapter) (e : LEvent) : conBal i (a.overlook e) = conBal i a := by
  rcases overlook_note a e with h | h <;> rw [h]
  exact conBal_note i a _ rfl rfl

/-- An effect finishes an operation, is delivered, or nothing. -/
inductive Effected (a : Adapter) : Adapter → Prop where
  | none : Effected a a
  | finish (uid id : Nat) (op : AOp) (e : Client5.Error) (ack : Option Received) :
      findUid uid a.table = some (id, op) → Effected a (a.finish id op (result op.kind e ack))
  | publish (v : PublishView) : Effected a (a.onPublish v)

theorem onEffect_effected (a : Adapter) (e : Effect) : Effected a (a.onEffect e) := by
  unfold Adapter.onEffect
  split
  · unfold Adapter.onCompleted
    split
    · exact .none
    · rename_i h
      exact .finish _ _ _ _ _ h
  · split
    · exact .publish _
    · exact .none
  · exact .none

theorem disBal_table (i : Nat) (a : Adapter) (t : AMap Nat AOp) : disBal i { a with table := t } = disBal i a := rfl
theorem conBal_table (i : Nat) (a : Adapter) (t : AMap Nat AOp) : conBal i { a with table := t } = conBal i a := rfl

theorem disBal_finish (i : Nat) (a : Adapter) (id : Nat) (op : AOp) (r : Result) :
    disBal i (a.finish id op r) = disBal i a := by
  unfold Adapter.finish
  rw [disBal_note i _ _ rfl rfl, disBal_table]

theorem conBal_finish (i : Nat) (a : Adapter) (id : Nat) (op : AOp) (r : Result) :
    conBal i (a.finish id op r) = conBal i a := by
  unfold Adapter.finish
  rw [conBal_note i _ _ rfl rfl, conBal_table]

theorem disBal_onEffect (i : Nat) (a : Adapter) (e : Effect) : disBal i (a.onEffect e) = disBal i a := by
  have hx := onEffect_effected a e
  generalize a.onEffect e = a' at hx ⊢
  cases hx with
  | none => rfl
  | finish _ id op e ack h => exact disBal_finish ..
  | publish v => exact disBal_note i a _ rfl rfl

theorem conBal_onEffect (i : Nat) (a : Adapter) (e : Effect) : conBal i (a.onEffect e) = conBal i a := by
  have hx := onEffect_effected a e
  generalize a.onEffect e = a' at hx ⊢
  cases hx with
  | none => rfl
  | finish _ id op e ack h => exact conBal_finish ..
  | publish v => exact conBal_note i a _ rfl rfl

theorem disBal_react (i : Nat) (s : Sys) (c : Client) : disBal i (s.react c).ad = disBal i s.ad :=
  react_const (disBal i) s c (disBal_onEvent i) (disBal_overlook i) (disBal_onEffect i)

theorem conBal_react (i : Nat) (s : Sys) (c : Client) : conBal i (s.react c).ad = conBal i s.ad :=
  react_const (conBal i) s c (conBal_onEvent i) (conBal_overlook i) (conBal_onEffect i)

/-! ## What is stored, and the state -/

/-- What the callbacks of the client do to the stored answers. -/
structure Kept (a a' : Adapter) : Prop where
  complete : a'.onComplete = a.onComplete ∨ a'.onComplete = none
  disconnect : a'.onDisconnect = a.onDisconnect ∨ a'.onDisconnect = none

theorem Kept.refl (a : Adapter) : Kept a a := ⟨.inl rfl, .inl rfl⟩

theorem Kept.trans {a b c : Adapter} (h : Kept a b) (h' : Kept b c) : Kept a c := by
  refine ⟨?_, ?_⟩
  · rcases h'.complete with h1 | h1
    · rw [h1]; exact h.complete
    · exact .inr h1
  · rcases h'.disconnect with h1 | h1
    · rw [h1]; exact h.disconnect
    · exact .inr h1

theorem completeConnect_kept (a : Adapter) (c : Code) : Kept a (a.completeConnect c) := by
  unfold Adapter.completeConnect
  split
  · exact .refl _
  · exact ⟨.inr rfl, .inl rfl⟩

theorem completeDisconnect_kept (a : Adapter) : Kept a a.completeDisconnect := by
  unfold Adapter.completeDisconnect
  split
  · exact .refl _
  · exact ⟨.inl rfl, .inr rfl⟩

theorem completeConnect_onComplete (a : Adapter) (c : Code) : (a.completeConnect c).onComplete = none := by
  unfold Adapter.completeConnect
  split
  · assumption
  · rfl

theorem completeDisconnect_onDisconnect (a : Adapter) : a.completeDisconnect.onDisconnect = none := by
  unfold Adapter.completeDisconnect
  split
  · assumption
  · rfl

theorem completeConnect_onDisconnect (a : Adapter) (c : Code) :
    (a.completeConnect c).onDisconnect = a.onDisconnect := by
  unfold Adapter.completeConnect
  split <;> rfl

theorem completeDisconnect_onComplete (a : Adapter) : a.completeDisconnect.onComplete = a.onComplete := by
  unfold Adapter.completeDisconnect
  split <;> rfl

theorem completeConnect_state (a : Adapter) (c : Code) : (a.completeConnect c).state = a.state := by
  unfold Adapter.completeConnect
  split <;> rfl

theorem completeDisconnect_state (a : Adapter) : a.completeDisconnect.state = a.state := by
  unfold Adapter.completeDisconnect
  split <;> rfl

theorem onEvent_kept (a : Adapter) (e : LEvent) : Kept a (a.onEvent e) := by
  unfold Adapter.onEvent
  cases e with
  | attempting => exact ⟨.inl rfl, .inl rfl⟩
  | success =>
    dsimp only
    split
    · exact .refl _
    · have h := completeConnect_kept (a.note .connectionSuccess) .ok
      exact ⟨h.complete, h.disconnect⟩
    · exact ⟨.inl rfl, .inl rfl⟩
  | failure e =>
    dsimp only
    split
    · exact .refl _
    · split
      · exact .refl _
      · have h := completeConnect_kept (a.note (.connectionFailure (translate e))) (translate e)
        exact ⟨h.complete, h.disconnect⟩
      · exact ⟨.inl rfl, .inl rfl⟩
  | disconnection e =>
    dsimp only
    split
    · exact ⟨.inl rfl, .inl rfl⟩
    · exact .refl _
  | stopped =>
    have h := completeDisconnect_kept a
    exact ⟨h.complete, h.disconnect⟩

theorem onEffect_kept (a : Adapter) (e : Effect) : Kept a (a.onEffect e) := by
  have hx := onEffect_effected a e
  generalize a.onEffect e = a' at hx ⊢
  cases hx with
  | none => exact .refl _
  | finish _ id op e ack h => exact ⟨.inl rfl, .inl rfl⟩
  | publish v => exact ⟨.inl rfl, .inl rfl⟩

theorem overlook_kept (a : Adapter) (e : LEvent) : Kept a (a.overlook e) := by
  rcases overlook_note a e with h | h <;> rw [h]
  · exact .refl _
  · exact ⟨.inl rfl, .inl rfl⟩

theorem react_kept (s : Sys) (c : Client) : Kept s.ad (s.react c).ad :=
  react_induct (P := fun a => Kept s.ad a) s c (fun _ e h => h.trans (onEvent_kept _ e))
    (fun _ e h => h.trans (overlook_kept _ e)) (fun _ e h => h.trans (onEffect_kept _ e)) (.refl _)

/-- `on_disconnect` is stored only while disconnected. -/
def Quiet (a : Adapter) : Prop := a.state ≠ .stayDisconnected → a.onDisconnect = none

/-- `on_connection_complete` is stored only while connecting for the first time, or overlooked. -/
def Waiting (a : Adapter) : Prop := a.onComplete ≠ none → a.state ≠ .stayConnected

theorem onEvent_quiet (a : Adapter) (e : LEvent) (h : Quiet a) : Quiet (a.onEvent e) := by
  unfold Quiet at *
  unfold Adapter.onEvent
  cases e with
  | attempting => exact h
  | success =>
    dsimp only
    split
    · exact h
    · rename_i hs
      intro _
      change (Adapter.completeConnect _ _).onDisconnect = none
      rw [completeConnect_onDisconnect]
      exact h (by rw [hs]; decide)
    · exact h
  | failure e =>
    dsimp only
    split
    · exact h
    · split
      · exact h
      · intro h'; exact absurd rfl h'
      · exact h
  | disconnection e =>
    dsimp only
    split
    · exact h
    · exact h
  | stopped => intro h'; exact absurd rfl h'

theorem onEffect_quiet (a : Adapter) (e : Effect) (h : Quiet a) : Quiet (a.onEffect e) := by
  have hx := onEffect_effected a e
  generalize a.onEffect e = a' at hx ⊢
  cases hx with
  | none => exact h
  | finish _ id op e ack _ => exact h
  | publish v => exact h

theorem overlook_quiet (a : Adapter) (e : LEvent) (h : Quiet a) : Quiet (a.overlook e) := by
  rcases overlook_note a e with h' | h' <;> rw [h'] <;> exact h

theorem react_quiet (s : Sys) (c : Client) (h : Quiet s.ad) : Quiet (s.react c).ad :=
  react_induct (P := Quiet) s c onEvent_quiet overlook_quiet onEffect_quiet h

/-- Calls are numbered. -/
def Numbered (a : Adapter) : Prop := ∀ i, tally a (Note.calls i) ≤ if i < a.calls then 1 else 0

/-- Notes of calls. -/
def Note.isCall : Note → Bool
  | .connectCalled _ => true
  | .disconnectCalled _ => true
  | .accepted .. => true
  | _ => false

theorem Note.calls_of {n : Note} (h : n.isCall = false) (i : Nat) : n.calls i = false := by
  cases n <;> first | rfl | cases h

theorem tally_note (a : Adapter) (n : Note) (p : Note → Bool) : tally (a.note n) p = tally a p + if p n then 1 else 0 := by
  simp [tally]

/-- Calls made so far stay as they are. -/
def SameCalls (a a' : Adapter) : Prop := ∀ i, tally a' (Note.calls i) = tally a (Note.calls i)

theorem completeConnect_calls (a : Adapter) (c : Code) : SameCalls a (a.completeConnect c) := by
  intro i
  unfold Adapter.completeConnect
  split
  · rfl
  · rw [tally_note]; rfl

theorem completeDisconnect_calls (a : Adapter) : SameCalls a a.completeDisconnect := by
  intro i
  unfold Adapter.completeDisconnect
  split
  · rfl
  · rw [tally_note]; rfl

theorem note_calls' (a : Adapter) {n : Note} (h : n.isCall = false) : SameCalls a (a.note n) := by
  intro i
  rw [tally_note, Note.calls_of h]
  rfl

theorem SameCalls.trans {a b c : Adapter} (h : SameCalls a b) (h' : SameCalls b c) : SameCalls a c :=
  fun i => (h' i).trans (h i)

theorem SameCalls.refl (a : Adapter) : SameCalls a a := fun _ => rfl

theorem onEvent_calls (a : Adapter) (e : LEvent) : SameCalls a (a.onEvent e) := by
  unfold Adapter.onEvent
  cases e with
  | attempting => exact note_calls' a rfl
  | success =>
    dsimp only
    split
    · exact .refl _
    · exact (note_calls' a (n := .connectionSuccess) rfl).trans (completeConnect_calls _ _)
    · exact (note_calls' a (n := .connectionSuccess) rfl).trans (note_calls' _ rfl)
  | failure e =>
    dsimp only
    split
    · exact .refl _
    · split
      · exact .refl _
      · exact (note_calls' a (n := .connectionFailure (translate e)) rfl).trans (completeConnect_calls _ _)
      · exact note_calls' a rfl
  | disconnection e =>
    dsimp only
    split
    · exact note_calls' a rfl
    · exact .refl _
  | stopped => exact (completeDisconnect_calls a).trans (note_calls' a.completeDisconnect (n := .closed) rfl)

theorem finish_calls (a : Adapter) (id : Nat) (op : AOp) (r : Result) : SameCalls a (a.finish id op r) :=
  note_calls' ({ a with table := a.table.del id } : Adapter) rfl

theorem onEffect_calls (a : Adapter) (e : Effect) : SameCalls a (a.onEffect e) := by
  have hx := onEffect_effected a e
  generalize a.onEffect e = a' at hx ⊢
  cases hx with
  | none => exact .refl _
  | finish _ id op e ack h => exact finish_calls a id op _
  | publish v => exact note_calls' a rfl

theorem overlook_calls (a : Adapter) (e : LEvent) : SameCalls a (a.overlook e) := by
  rcases overlook_note a e with h | h <;> rw [h]
  · exact .refl _
  · exact note_calls' a rfl

theorem react_calls (s : Sys) (c : Client) : SameCalls s.ad (s.react c).ad :=
  react_induct (P := fun a => SameCalls s.ad a) s c (fun _ e h => h.trans (onEvent_calls _ e))
    (fun _ e h => h.trans (overlook_calls _ e)) (fun _ e h => h.trans (onEffect_calls _ e)) (.refl _)

end Mqtt.Adapter
