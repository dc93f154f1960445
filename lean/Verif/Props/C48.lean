import Verif.Lemmas.Client311Spec

/-! C48: 3.1.1 client: packet ids of outstanding operations are unique and non-zero. -/
namespace Mqtt.Props
open Mqtt.Client311

variable {allowed : Conn → Event → Prop} {c : Conn}

/-- The packet id of a request that is not completed is not 0 and fits into two bytes. -/
theorem C48_range (h : Client311.Reachable allowed c) {uid id : Nat} {kind : Kind} {size : Nat}
    (ho : Outstanding c.log uid id kind size) : 1 ≤ id ∧ id ≤ 65535 := by
  obtain ⟨_, _, r, hr, e, _⟩ := h.outstanding ho
  obtain ⟨⟨done, _, hs⟩, _⟩ := h.inv.2
  rw [← e]
  exact hs.range uid r hr

/-- Two requests that are not completed have different packet ids. -/
theorem C48_unique (h : Client311.Reachable allowed c) {u v id : Nat} {ku kv : Kind} {su sv : Nat}
    (hu : Outstanding c.log u id ku su) (hv : Outstanding c.log v id kv sv) : u = v := by
  have h1 := (h.outstanding hu).2.1
  have h2 := (h.outstanding hv).2.1
  rw [h1] at h2
  exact Option.some.inj h2

/-- A request is only refused for lack of packet ids if each of them belongs to a request that is not completed or one
that is being cancelled at the end of a clean session. -/
theorem C48_full (h : Client311.Reachable allowed c) {kind : Kind} {size : Nat} {c' : Conn}
    (hs : Client311.step c (.create kind size) = .ok c') (hl : c'.log = c.log ++ [.refused .full]) {id : Nat}
    (h1 : 1 ≤ id) (h2 : id ≤ 65535) : ∃ uid kind size, .accepted uid id kind size ∈ c.log ∧
      (completions c.log uid = 0 ∨ ∃ all todo next, c.busy = .cancelling all todo next ∧ uid ∈ all) := by
  have no : ∀ t, c.log ++ [t] = c.log ++ [.refused .full] → t ≠ .refused .full → False := by
    intro t e hn
    have := List.append_cancel_left e
    simp at this
    exact hn this
  rcases create_cases hs with ⟨e, _⟩ | ⟨e, _⟩ | ⟨r, hr, ⟨hf, e⟩ | ⟨_, _, _, ⟨_, e⟩ | ⟨_, _, _, _, e⟩ | ⟨_, _, e⟩⟩⟩
  · cases e; exact (no _ hl (by simp)).elim
  · cases e; exact (no _ hl (by simp)).elim
  · obtain ⟨⟨done, e2, hst⟩, _, hid, hfirst⟩ := h.inv.2
    have hfull := searchId_none (used := fun id => (c.table.get id).isSome) hid
      (fun e0 => by simp [hfirst e0]) (by rw [hr]; exact hf) id h1 h2
    obtain ⟨uid, hu⟩ := Option.isSome_iff_exists.1 hfull
    obtain ⟨r2, hr2, e3⟩ := (hst.tab id uid).1 hu
    have ht := hst.told uid r2 hr2
    rw [e3] at ht
    refine ⟨uid, r2.kind, r2.size, ht, ?_⟩
    rcases (hst.places uid).1 (by rw [hr2]; rfl) with hlv | hdn
    · exact .inl (by rw [hst.once, if_neg fun h => h.2 hlv])
    · refine .inr ?_
      cases hb : c.busy with
      | cancelling all todo next =>
        rw [hb] at e2
        simp only [Busy.all, Busy.todo] at e2
        exact ⟨all, todo, next, rfl, by rw [e2]; exact List.mem_append_left _ hdn⟩
      | idle => rw [hb] at e2; simp [Busy.all, Busy.todo] at e2; rw [e2] at hdn; cases hdn
      | interrupted => rw [hb] at e2; simp [Busy.all, Busy.todo] at e2; rw [e2] at hdn; cases hdn
      | launching => rw [hb] at e2; simp [Busy.all, Busy.todo] at e2; rw [e2] at hdn; cases hdn
  · cases e; exact (no _ hl (by simp)).elim
  · cases e; exact (no _ hl (by simp)).elim
  · cases e

/-! Two requests that are not completed, after the first id has been released and ids have gone on. -/
def C48_history : List Event :=
  [.connect false, .advance, .launch true, .setup .opened, .packet (.connack true), .create (.publish 1) 10,
   .create (.subscribe 2) 20, .run 0 (.ongoing true 0), .packet (.puback 1), .create (.publish 2) 10]

example : (Outstanding (after C48_history).log 1 2 (.subscribe 2) 20) ∧
    (Outstanding (after C48_history).log 2 3 (.publish 2) 10) := by
  unfold Outstanding
  decide +kernel

/-- A connection that is not connected and has accepted `n` publishes. -/
def C48_filled : Nat → Conn
  | 0 => {}
  | n + 1 =>
    match (C48_filled n).create (.publish 1) 4 with
    | .ok c => c
    | .error _ => {}

theorem C48_filled_spec (n : Nat) (hn : n ≤ 65535) : Client311.Reachable (fun _ _ => True) (C48_filled n) ∧
    (C48_filled n).state = .disconnected ∧ (C48_filled n).destroyed = false ∧ (C48_filled n).lastId = n ∧
    ∀ id, ((C48_filled n).table.get id).isSome = true ↔ 1 ≤ id ∧ id ≤ n := by
  induction n with
  | zero => exact ⟨.init, rfl, rfl, rfl, fun id => by simp [C48_filled]; omega⟩
  | succ n ih =>
    obtain ⟨h1, h2, h3, h4, h5⟩ := ih (by omega)
    have hid : nextId n = n + 1 := by unfold nextId; rw [if_neg (by omega)]
    have hfree : ((C48_filled n).table.get (n + 1)).isSome = false := by
      cases h : ((C48_filled n).table.get (n + 1)).isSome with
      | false => rfl
      | true => have := (h5 (n + 1)).1 h; omega
    have hsr : searchId (fun id => ((C48_filled n).table.get id).isSome) n 65536 n = (n + 1, true) := by
      unfold searchId
      simp only [hid, hfree, Bool.not_false, if_true]
    have he : (C48_filled n).create (.publish 1) 4 = .ok
        { (C48_filled n).added (.publish 1) (n + 1) 4 with
          pending := (C48_filled n).pending ++ [(C48_filled n).nextUid] } := by
      rcases create_cases (c := C48_filled n) (kind := .publish 1) (size := 4) rfl with
        ⟨e, e2⟩ | ⟨e, e2, _⟩ | ⟨r, hr, ⟨hf, e⟩ | ⟨_, _, _, ⟨_, e⟩ | ⟨e2, _⟩ | ⟨e2, _⟩⟩⟩
      · rw [h2] at e2; cases e2
      · simp [Kind.retryable] at e2
      · rw [h4, hsr] at hr; rw [← hr] at hf; cases hf
      · rw [h4, hsr] at hr; rw [← hr] at e; exact e
      · rw [h2] at e2; cases e2
      · rw [h2] at e2; cases e2
    have hc : C48_filled (n + 1) = { (C48_filled n).added (.publish 1) (n + 1) 4 with
          pending := (C48_filled n).pending ++ [(C48_filled n).nextUid] } := by
      rw [C48_filled, he]
    refine ⟨.step (e := .create (.publish 1) 4) h1 h3 (by simp [Enabled]) trivial (by rw [hc]; exact he), ?_, ?_, ?_, ?_⟩
    · rw [hc]; exact h2
    · rw [hc]; exact h3
    · rw [hc]; rfl
    · intro id
      rw [hc]
      simp only [Conn.added, AMap.get_set]
      split
      · next e => simp [e]
      · rw [h5]; omega

/-- There are connections on which a request is refused for lack of packet ids. -/
example : ∃ c c', Client311.Reachable (fun _ _ => True) c ∧ Client311.step c (.create (.publish 1) 4) = .ok c' ∧
    c'.log = c.log ++ [.refused .full] := by
  obtain ⟨h1, h2, h3, h4, h5⟩ := C48_filled_spec 65535 (by omega)
  generalize C48_filled 65535 = c at h1 h2 h3 h4 h5
  rcases create_cases (c := c) (kind := .publish 1) (size := 4) rfl with
    ⟨e, e2⟩ | ⟨e, e2, _⟩ | ⟨r, hr, ⟨hf, e⟩ | ⟨hf, _, _, _⟩⟩
  · rw [h2] at e2; cases e2
  · simp [Kind.retryable] at e2
  · exact ⟨c, _, h1, e, rfl⟩
  · exfalso
    have hfree := searchId_free (fun id => (c.table.get id).isSome) c.lastId 65536 c.lastId
    have hrange := searchId_range (fun id => (c.table.get id).isSome) c.lastId 65536 c.lastId h1.inv.2.lastId (by omega)
    rw [hr] at hfree hrange
    have := hfree hf
    rw [(h5 r.1).2 hrange] at this
    cases this

end Mqtt.Props
