import Verif.Lemmas.Client311Run

/-! When an event of the 3.1.1 connection ends in a fault. -/
namespace Mqtt.Client311

theorem Held.idleStore {c : Conn} (h : Held c) (hb : c.busy = .idle) :
    Store c.nextUid c.reqs c.table c.log c.live [] := by
  obtain ⟨⟨done, e, hs⟩, _⟩ := h
  rw [hb] at e
  simp only [Busy.all, Busy.todo, List.append_nil] at e
  rw [← e] at hs
  exact hs

/-- Where a request in the table is. -/
theorem Held.place {c : Conn} (h : Held c) (hb : c.busy = .idle) {id uid : Nat} (ht : c.table.get id = some uid) :
    ∃ r, c.reqs.get uid = some r ∧ r.id = id ∧
      (uid ∈ c.pending ∨ uid ∈ c.ongoing ∨ uid ∈ c.tasks.map (·.1)) := by
  have hs := h.idleStore hb
  obtain ⟨r, hr, hid⟩ := (hs.tab id uid).1 ht
  refine ⟨r, hr, hid, ?_⟩
  have := (hs.places uid).1 (by simp [hr])
  simp only [Conn.live, hb, Busy.todo, List.append_nil, List.mem_append, List.not_mem_nil, or_false] at this
  rcases this with (h | h) | h
  · exact .inl h
  · exact .inr (.inl h)
  · exact .inr (.inr h)

theorem finish_fault {c : Conn} (h : Held c) (hb : c.busy = .idle) {id : Nat} {o : Outcome} {f : Fault}
    (hs : c.finish id o = .error f) :
    f = .memory ∧ ∃ uid, c.table.get id = some uid ∧ uid ∈ c.tasks.map (·.1) := by
  rcases finish_cases hs with ⟨_, e⟩ | ⟨uid, ht, ⟨_, e⟩ | ⟨h1, h2, e⟩⟩
  · cases e
  · cases e
  · cases e
    obtain ⟨r, _, _, h3 | h3 | h3⟩ := h.place hb ht
    · exact absurd h3 h2
    · exact absurd h3 h1
    · exact ⟨rfl, uid, ht, h3⟩

theorem create_fault {c : Conn} (h : Ctl c) {kind : Kind} {size : Nat} {f : Fault}
    (hs : c.create kind size = .error f) : False := by
  rcases create_cases hs with ⟨e, _⟩ | ⟨e, _⟩ | ⟨r, _, ⟨_, e⟩ | ⟨_, _, _, ⟨_, e⟩ | ⟨_, _, _, _, e⟩ | ⟨hc, hn, e⟩⟩⟩
  · cases e
  · cases e
  · cases e
  · cases e
  · cases e
  · have := (h.connected hc).1
    rcases hn with hn | hn
    · rw [this] at hn; cases hn
    · rw [(h.noChan hn).1] at this; cases this

theorem release_fault {c : Conn} {f : Fault} (h : c.held = 0 → c.pinned = false → c.state = .disconnected)
    (hs : c.release = .error f) : False := by
  unfold Conn.release at hs
  split at hs
  · next e =>
    rw [if_pos (h e.1 e.2)] at hs
    cases hs
  · cases hs

theorem schedule_fault {c : Conn} {f : Fault} (h : c.reconnect ≠ .absent) (hs : c.schedule = .error f) : False := by
  unfold Conn.schedule at hs
  split at hs
  · next e => exact h e
  · cases hs

theorem advance_fault {c : Conn} (h : Ctl c) {f : Fault} (hs : c.advance = .error f) : False := by
  unfold Conn.advance at hs
  split at hs
  · cases hs
  · next all next hb =>
    obtain ⟨rq, tb, tm, e, htm⟩ := removeAll_eq all c
    simp only at hs
    rw [e] at hs
    split at hs
    · cases hs
    · refine schedule_fault ?_ hs
      rcases h.shut _ _ _ hb with ⟨h1, _⟩ | ⟨h1, _⟩ | ⟨_, _, h3⟩
      · cases h1
      · cases h1
      · exact h3
    · cases hs
    · cases hs
    · exact release_fault (fun _ _ => rfl) hs
  · next hb =>
    split at hs
    · exact release_fault (fun _ _ => rfl) hs
    · refine schedule_fault ?_ hs
      exact (h.intr hb).2
  · cases hs

theorem suback_fault {c : Conn} (h : Held c) (hb : c.busy = .idle) {chan id codes : Nat} {f : Fault}
    (hs : c.suback chan id codes = .error f) :
    f = .memory ∧ ∃ uid r, c.table.get id = some uid ∧ c.reqs.get uid = some r ∧
      (uid ∈ c.tasks.map (·.1) ∨ r.kind.isSubscribe = false) := by
  unfold Conn.suback at hs
  split at hs
  · cases hs
  · next uid ht =>
    obtain ⟨r, hr, _⟩ := h.place hb ht
    rw [hr] at hs
    simp only at hs
    split at hs
    · next e =>
      cases hs
      exact ⟨rfl, uid, r, ht, hr, .inr (by simpa using e)⟩
    · split at hs
      · cases hs
      · obtain ⟨e, uid2, ht2, hm⟩ := finish_fault h hb hs
        rw [ht] at ht2
        cases ht2
        exact ⟨e, uid, r, ht, hr, .inl hm⟩

theorem receive_fault {c : Conn} (h : Held c) (hb : c.busy = .idle) {chan : Nat} {p : Packet} {f : Fault}
    (hs : c.receive chan p = .error f) :
    f = .memory ∧ c.state ≠ .connecting ∧ ∃ id uid r, p.ack = some id ∧ c.table.get id = some uid ∧
      c.reqs.get uid = some r ∧
      (uid ∈ c.tasks.map (·.1) ∨ (p.isSuback = true ∧ r.kind.isSubscribe = false)) := by
  have fin : ∀ id, p.ack = some id → c.state ≠ .connecting →
      (c.tell (.processed chan p)).finish id .success = .error f →
      f = .memory ∧ c.state ≠ .connecting ∧ ∃ id uid r, p.ack = some id ∧ c.table.get id = some uid ∧
        c.reqs.get uid = some r ∧
        (uid ∈ c.tasks.map (·.1) ∨ (p.isSuback = true ∧ r.kind.isSubscribe = false)) := by
    intro id hp hst hs
    obtain ⟨e, uid, ht, hm⟩ := finish_fault (h.tell rfl) hb hs
    obtain ⟨r, hr, _⟩ := h.place hb ht
    exact ⟨e, hst, id, uid, r, hp, ht, hr, .inl hm⟩
  unfold Conn.receive at hs
  split at hs
  · cases hs
  · cases hs
  · split at hs
    · cases hs
    · next hst =>
      split at hs
      · cases hs
      · exact fin _ rfl hst hs
      · exact fin _ rfl hst hs
      · exact fin _ rfl hst hs
      · next id codes _ _ =>
        obtain ⟨e, uid, r, ht, hr, hm⟩ := suback_fault (h.tell rfl) hb hs
        refine ⟨e, hst, id, uid, r, rfl, ht, hr, ?_⟩
        rcases hm with hm | hm
        · exact .inl hm
        · exact .inr ⟨rfl, hm⟩
      · cases hs
      · cases hs
      · cases hs

/-- Only an acknowledgement by the server can end in a fault, and only if it names a request that is not waiting for
one, or if it is a SUBACK that names another kind of request. -/
theorem fault_cases {c : Conn} {e : Event} {f : Fault} (hc : Ctl c) (hh : Held c) (he : Enabled c e = true)
    (hs : step c e = .error f) :
    f = .memory ∧ ∃ p id uid r, e = .packet p ∧ c.busy = .idle ∧ c.state ≠ .connecting ∧ p.ack = some id ∧
      c.table.get id = some uid ∧ c.reqs.get uid = some r ∧
      (uid ∈ c.tasks.map (·.1) ∨ (p.isSuback = true ∧ r.kind.isSubscribe = false)) := by
  cases e with
  | create kind size => exact (create_fault hc hs).elim
  | connect clean => cases hs
  | launch ok => cases hs
  | advance => exact (advance_fault hc hs).elim
  | disconnect => cases hs
  | acquire => cases hs
  | release =>
    simp only [Enabled, decide_eq_true_eq] at he
    refine (release_fault (c := { c with held := c.held - 1 }) ?_ hs).elim
    intro e hp
    have e : c.held - 1 = 0 := e
    have h1 : c.held = 1 := by have := he.1; omega
    by_cases hd : c.state = .disconnected
    · exact hd
    · have := hc.pin hd (he.2 h1).1
      rw [show c.pinned = false from hp] at this; cases this
  | setup r => cases hs
  | packet p =>
    simp only [Enabled, decide_eq_true_eq] at he
    simp only [Client311.step] at hs
    split at hs
    · next hn =>
      have := (hc.noChan hn).1
      rw [he.2] at this; cases this
    · obtain ⟨e, hst, id, uid, r, h1, h2, h3, h4⟩ := receive_fault hh he.1 hs
      exact ⟨e, p, id, uid, r, rfl, he.1, hst, h1, h2, h3, h4⟩
  | ping => exact (create_fault hc hs).elim
  | run k result =>
    simp only [Client311.step] at hs
    split at hs <;> cases hs
  | cancel k =>
    simp only [Client311.step] at hs
    split at hs <;> cases hs
  | timeout uid =>
    simp only [Enabled, decide_eq_true_eq] at he
    have hst := hh.idleStore he.1
    have ho := hh.timers uid he.2
    obtain ⟨r, hr⟩ := hst.live_isSome (u := uid) (by simp [Conn.live, ho])
    simp only [Client311.step, hr] at hs
    have ht := (hst.tab r.id uid).2 ⟨r, hr, rfl⟩
    rcases finish_cases hs with ⟨h1, e⟩ | ⟨uid2, h1, ⟨h2, e⟩ | ⟨h2, h3, e⟩⟩
    · cases e
    · cases e
    · rw [ht] at h1
      cases h1
      exact absurd ho h2
  | attempt ok =>
    exfalso
    simp only [Client311.step, Conn.attempt] at hs
    split at hs
    · split at hs
      · cases hs
      · exact release_fault (fun _ _ => rfl) hs
    · split at hs <;> cases hs
  | disconnectTask => cases hs
  | close => cases hs
  | shutdown => cases hs

end Mqtt.Client311
