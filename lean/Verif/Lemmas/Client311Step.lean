import Verif.Lemmas.Client311
import Verif.Lemmas.Client311Ids

/-! What the operations of the 3.1.1 connection do. -/
namespace Mqtt.Client311

/-- A new request. -/
def newRequest (kind : Kind) (id size : Nat) : Request :=
  { kind := kind, id := id, size := size, incomplete := size ≠ 0, topics := kind.topics }

/-- A connection with a new request that is put into no list yet. -/
def Conn.added (c : Conn) (kind : Kind) (id size : Nat) : Conn :=
  { c with
    lastId := id
    nextUid := c.nextUid + 1
    reqs := c.reqs.set c.nextUid (newRequest kind id size)
    table := c.table.set id c.nextUid
    incompleteCount := c.incompleteCount + (if size = 0 then 0 else 1)
    incompleteSize := c.incompleteSize + size
    log := c.log ++ [.accepted c.nextUid id kind size] }

theorem add_eq (c : Conn) (kind : Kind) (id size : Nat) : c.add kind id size = c.added kind id size := by
  unfold Conn.add
  simp only
  rw [change_eq (AMap.get_set_same ..)]
  by_cases hs : size = 0
  · simp [Conn.added, newRequest, hs, weight]
  · simp [Conn.added, newRequest, hs, weight, delta, AMap.set_set]

theorem create_cases {c : Conn} {kind : Kind} {size : Nat} {x : Except Fault Conn} (h : c.create kind size = x) :
    (x = .ok (c.tell (.refused .disconnecting)) ∧ c.state = .disconnecting) ∨
    (x = .ok (c.tell (.refused .notConnected)) ∧ kind.retryable = false ∧ c.state ≠ .connected) ∨
    (∃ r, searchId (fun id => (c.table.get id).isSome) c.lastId 65536 c.lastId = r ∧
      ((r.2 = false ∧ x = .ok { c with lastId := r.1, log := c.log ++ [.refused .full] }) ∨
       (r.2 = true ∧ c.state ≠ .disconnecting ∧ (kind.retryable = false → c.state = .connected) ∧
        ((c.state ≠ .connected ∧ x = .ok { c.added kind r.1 size with pending := c.pending ++ [c.nextUid] }) ∨
         (c.state = .connected ∧ ∃ chan, c.slot = true ∧ c.chan = some chan ∧
            x = .ok { c.added kind r.1 size with tasks := c.tasks ++ [(c.nextUid, chan)] }) ∨
         (c.state = .connected ∧ (c.slot = false ∨ c.chan = none) ∧ x = .error .memory))))) := by
  unfold Conn.create at h
  split at h
  · next e => exact .inl ⟨h.symm, e⟩
  next e1 =>
  split at h
  · next e => exact .inr (.inl ⟨h.symm, by simpa using e.1, e.2⟩)
  next e2 =>
  refine .inr (.inr ⟨_, rfl, ?_⟩)
  simp only [add_eq] at h
  generalize searchId (fun id => (c.table.get id).isSome) c.lastId 65536 c.lastId = r at h ⊢
  split at h
  · next e =>
    refine .inl ⟨by simpa using e, h.symm⟩
  next e3 =>
  refine .inr ⟨by simpa using e3, e1, fun hk => ?_, ?_⟩
  · by_cases hc : c.state = .connected
    · exact hc
    · exact absurd ⟨by simp [hk], hc⟩ e2
  split at h
  · next hc => exact .inl ⟨hc, h.symm⟩
  next hc =>
  have hc : c.state = .connected := by simpa using hc
  split at h
  · next chan hs hch => exact .inr (.inl ⟨hc, chan, hs, hch, h.symm⟩)
  · next hn =>
    refine .inr (.inr ⟨hc, ?_, h.symm⟩)
    cases hs : c.slot with
    | false => exact .inl rfl
    | true =>
      cases hch : c.chan with
      | none => exact .inr rfl
      | some n => exact (hn n hs hch).elim

theorem finish_cases {c : Conn} {id : Nat} {o : Outcome} {x : Except Fault Conn} (h : c.finish id o = x) :
    (c.table.get id = none ∧ x = .ok c) ∨
    (∃ uid, c.table.get id = some uid ∧
      (((uid ∈ c.ongoing ∨ uid ∈ c.pending) ∧
        x = .ok { c.complete uid o with
          ongoing := (c.complete uid o).ongoing.filter (· ≠ uid)
          pending := (c.complete uid o).pending.filter (· ≠ uid) }) ∨
       (uid ∉ c.ongoing ∧ uid ∉ c.pending ∧ x = .error .memory))) := by
  unfold Conn.finish at h
  split at h
  · next e => exact .inl ⟨e, h.symm⟩
  next uid e =>
  refine .inr ⟨uid, e, ?_⟩
  split at h
  · next hm => exact .inl ⟨hm, h.symm⟩
  · next hm => exact .inr ⟨fun h => hm (.inl h), fun h => hm (.inr h), h.symm⟩

end Mqtt.Client311
