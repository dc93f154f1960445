import Verif.Return311
import Verif.Lemmas.Progress311Run

/-! C95: the packet identifiers returned by operations of a 3.1.1 connection, on any thread. -/
namespace Mqtt.Props
open Mqtt.Client311 Mqtt.Return311

variable {w : World}

theorem Return311_conn (h : Return311.Reachable w) : Client311.Reachable (fun _ _ => True) w.conn := by
  induction h with
  | init => exact .init
  | @step w w' e _ hd he hs ih =>
    cases e with
    | base e =>
      simp only [Return311.step] at hs
      split at hs
      · cases hs
      · rename_i c hc
        cases hs
        exact .step ih hd he trivial hc
    | ret k =>
      simp only [Return311.step] at hs
      split at hs
      · cases hs; exact ih
      · split at hs
        · cases hs
        · cases hs; exact ih

/-- A call that has not returned is for a request that has been accepted. -/
theorem Return311_accepted (h : Return311.Reachable w) : ∀ u ∈ w.calls, wasAccepted w.conn.log u := by
  induction h with
  | init => simp
  | @step w w' e hr hd he hs ih =>
    have hc' := Return311_conn (.step hr hd he hs)
    obtain ⟨_, _, hst⟩ := hc'.inv.2.store
    cases e with
    | base e =>
      simp only [Return311.step] at hs
      split at hs
      · cases hs
      · rename_i c hc
        cases hs
        have old : ∀ u, wasAccepted w.conn.log u → wasAccepted c.log u := by
          rintro u ⟨i, k, s, hm⟩
          rcases step_log hc with ⟨t, ht, _⟩ | ⟨_, _, _, _, _, _, _, _, _, ht, _⟩
          · exact ⟨i, k, s, by rw [ht]; exact List.mem_append.2 (.inl hm)⟩
          · exact ⟨i, k, s, by rw [ht]; exact List.mem_append.2 (.inl hm)⟩
        intro u hu
        rcases List.mem_append.1 hu with hu | hu
        · exact old u (ih u hu)
        · cases e with
          | create kind size =>
            simp only [called] at hu
            split at hu
            · cases hu
            · rename_i hne
              simp only [List.mem_singleton] at hu
              subst hu
              refine (hst.acc _).2 ?_
              simp only [Client311.step] at hc
              rcases create_cases hc with ⟨e, _⟩ | ⟨e, _⟩ | ⟨r, _, ⟨_, e⟩ | ⟨_, _, _, ⟨_, e⟩ | ⟨_, _, _, _, e⟩ | ⟨_, _, e⟩⟩⟩ <;>
                cases e <;> first | exact absurd rfl hne | exact Nat.lt_succ_self _
          | _ => cases hu
    | ret k =>
      simp only [Return311.step] at hs
      split at hs
      · cases hs; exact ih
      · split at hs
        · cases hs
        · cases hs
          exact fun u hu => ih u (List.eraseIdx_subset hu)

/-- **C95, call**: a call goes on with the operation it has started; one that has started none is refused. -/
theorem C95_called {w' : World} {kind : Kind} {size : Nat} (hs : Return311.step w (.base (.create kind size)) = .ok w') :
    (∃ u id, w'.calls = w.calls ++ [u] ∧ w'.conn.log = w.conn.log ++ [.accepted u id kind size]) ∨
    (∃ why, w'.calls = w.calls ∧ w'.conn.log = w.conn.log ++ [.refused why]) := by
  simp only [Return311.step] at hs
  split at hs
  · cases hs
  · rename_i c hc
    cases hs
    simp only [Client311.step] at hc
    rcases create_cases hc with ⟨e, _⟩ | ⟨e, _⟩ | ⟨r, _, ⟨_, e⟩ | ⟨_, _, _, ⟨_, e⟩ | ⟨_, _, _, _, e⟩ | ⟨_, _, e⟩⟩⟩ <;> cases e
    · exact .inr ⟨_, by simp [called, Conn.tell], rfl⟩
    · exact .inr ⟨_, by simp [called, Conn.tell], rfl⟩
    · exact .inr ⟨_, by simp [called], rfl⟩
    · exact .inl ⟨w.conn.nextUid, r.1, by simp [called, Conn.added], rfl⟩
    · exact .inl ⟨w.conn.nextUid, r.1, by simp [called, Conn.added], rfl⟩

/-- **C95, identifier**: what a call returns is the packet identifier of its own operation: not 0, and that of no other operation
that is not complete when the call returns. -/
theorem C95_identifier (h : Return311.Reachable w) {w' : World} {k u : Nat} (hk : w.calls[k]? = some u)
    (hs : Return311.step w (.ret k) = .ok w') :
    ∃ id kind size, w'.returned = w.returned ++ [(u, id)] ∧ .accepted u id kind size ∈ w.conn.log ∧ 1 ≤ id ∧ id ≤ 65535 ∧
      ∀ v kv sv, Outstanding w.conn.log v id kv sv → v = u := by
  obtain ⟨done, _, hst⟩ := (Return311_conn h).inv.2.store
  simp only [Return311.step, hk] at hs
  split at hs
  · cases hs
  · rename_i r hr
    cases hs
    refine ⟨r.id, r.kind, r.size, rfl, hst.told u r hr, (hst.range u r hr).1, (hst.range u r hr).2, ?_⟩
    intro v kv sv ho
    obtain ⟨_, _, r', hr', hid, _⟩ := (Return311_conn h).outstanding ho
    have h1 := (hst.tab r.id u).2 ⟨r, hr, rfl⟩
    have h2 := (hst.tab r.id v).2 ⟨r', hr', hid⟩
    rw [h1] at h2
    cases h2
    rfl

/-- **C95, memory**: as long as its operation is not complete, a call returns without touching memory that has been freed. -/
theorem C95_memory_partial (h : Return311.Reachable w) {k u : Nat} (hk : w.calls[k]? = some u)
    (hc : completions w.conn.log u = 0) : ∃ w', Return311.step w (.ret k) = .ok w' := by
  obtain ⟨id, kind, size, ha⟩ := Return311_accepted h u (List.mem_of_getElem? hk)
  obtain ⟨_, _, r, hr, _⟩ := (Return311_conn h).outstanding ⟨ha, hc⟩
  simp only [Return311.step, hk, hr]
  exact ⟨_, rfl⟩

/-- A history. -/
def runReturn (w : World) : List Return311.Event → Option World
  | [] => some w
  | e :: es =>
    if w.conn.destroyed = false ∧ Return311.Enabled w e = true then
      match Return311.step w e with
      | .error _ => none
      | .ok w' => runReturn w' es
    else none

theorem runReturn_reachable {es : List Return311.Event} {w w' : World} (h : runReturn w es = some w')
    (hr : Return311.Reachable w) : Return311.Reachable w' := by
  induction es generalizing w with
  | nil => cases h; exact hr
  | cons e es ih =>
    rw [runReturn] at h
    split at h
    · rename_i he
      split at h
      · cases h
      · rename_i w1 hs
        exact ih h (.step hr he.1 he.2 hs)
    · cases h

/-- A connection is established. -/
def C95_established : List Return311.Event :=
  [.base (.connect false), .base .advance, .base (.launch true), .base (.setup .opened), .base (.packet (.connack true))]

/-- Not vacuous: two threads publish, the calls return in the other order. -/
example : (runReturn {} (C95_established ++ [.base (.create (.publish 1) 9), .base (.create (.publish 1) 9), .ret 1, .ret 0])).any
    (fun w => decide (w.returned = [(1, 2), (0, 1)] ∧ w.calls = [])) = true := by
  decide +kernel

/-- **C95 is violated**: a publish with QoS 0 is sent, completed and freed by the event loop before the call returns, which
then reads the freed request. -/
theorem C95_violated : ∃ w k, Return311.Reachable w ∧ w.conn.destroyed = false ∧ Return311.Enabled w (.ret k) = true ∧
    Return311.step w (.ret k) = .error .memory := by
  have h : (runReturn {} (C95_established ++ [.base (.create (.publish 0) 9), .base (.run 0 .complete)])).any
    (fun w => decide (w.conn.destroyed = false ∧ w.calls = [0] ∧ w.conn.reqs.get 0 = none)) = true := by decide +kernel
  obtain ⟨w, hw, ht⟩ := (Option.any_eq_true _ _).1 h
  obtain ⟨h1, h2, h3⟩ := of_decide_eq_true ht
  refine ⟨w, 0, runReturn_reachable hw .init, h1, by simp [Return311.Enabled, h2], ?_⟩
  simp [Return311.step, h2, h3]

/-- The same without an event loop: a publish is made while there is no connection, and connect() with a clean session on another thread
cancels it before the call returns. -/
theorem C95_violated_offline : ∃ w k, Return311.Reachable w ∧ w.conn.destroyed = false ∧ Return311.Enabled w (.ret k) = true ∧
    Return311.step w (.ret k) = .error .memory ∧ ∀ u n, ¬ SentOn w.conn.log u n := by
  have h : (runReturn {} ([.base (.create (.publish 1) 9), .base (.connect true), .base .advance, .base .advance])).any
    (fun w => decide (w.conn.destroyed = false ∧ w.calls = [0] ∧ w.conn.reqs.get 0 = none ∧
      w.conn.log.all fun t => match t with | .sent .. => false | _ => true)) = true := by decide +kernel
  obtain ⟨w, hw, ht⟩ := (Option.any_eq_true _ _).1 h
  obtain ⟨h1, h2, h3, h4⟩ := of_decide_eq_true ht
  refine ⟨w, 0, runReturn_reachable hw .init, h1, by simp [Return311.Enabled, h2], by simp [Return311.step, h2, h3], ?_⟩
  rintro u n ⟨d, hm⟩
  have := List.all_eq_true.1 h4 _ hm
  simp at this

end Mqtt.Props
