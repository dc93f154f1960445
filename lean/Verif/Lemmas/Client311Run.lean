import Verif.Lemmas.Client311Held

/-! The invariants of the 3.1.1 connection hold in every history. -/
namespace Mqtt.Client311

theorem Held.advance {c c' : Conn} (h : Held c) (hc : Ctl c) (hs : c.advance = .ok c') : Held c' := by
  unfold Conn.advance at hs
  split at hs
  · next all uid todo next hb =>
    cases hs
    obtain ⟨⟨done, e, hs⟩, t1, t2, t3⟩ := h
    rw [hb] at e
    simp only [Busy.all, Busy.todo] at e
    refine ⟨⟨done ++ [uid], by simp [Busy.all, Busy.todo, e], ?_⟩, t1, t2, t3⟩
    have hp : c.live.Perm (uid :: (c.pending ++ c.ongoing ++ c.tasks.map (·.1) ++ todo)) := by
      simp only [Conn.live, hb, Busy.todo]
      exact List.perm_middle
    refine (hs.call .cleanSession hp).perm (List.Perm.refl _) ?_
    exact List.perm_append_comm
  · next all next hb =>
    obtain ⟨rq, tb, tm, e, htm⟩ := removeAll_eq all c
    obtain ⟨ho, hch, hr⟩ := hc.busyOpen (by rw [hb]; intro h; cases h)
    have key := h.rebusy hb
    rw [e] at key
    simp only at hs
    rw [e] at hs
    have hd : ∀ prev c', Conn.finishDisconnect { c with reqs := rq, table := tb, timers := tm } prev = .ok c' →
        Held c' := by
      intro prev c' hf
      have h1 : Held { c with reqs := rq, table := tb, timers := tm, busy := .idle } :=
        key _ rfl rfl rfl rfl rfl ⟨[], by simp, by simp⟩ rfl rfl rfl htm rfl
      exact Held.finishDisconnect (c := { c with reqs := rq, table := tb, timers := tm, busy := .idle }) h1 ⟨rfl, rfl⟩
        (fun h0 => hc.noTasks hch h0) hf
    split at hs
    · cases hs
      exact key _ rfl rfl rfl rfl rfl ⟨[], by simp, by simp⟩ rfl rfl rfl htm rfl
    · unfold Conn.schedule at hs
      split at hs
      · cases hs
      · cases hs
        exact key _ rfl rfl rfl rfl rfl ⟨[], by simp, by simp⟩ rfl rfl rfl htm rfl
    · cases hs
      exact key _ rfl rfl rfl rfl rfl ⟨[.interrupted], rfl, by simp [Client311.quiet]⟩ rfl rfl rfl htm rfl
    · cases hs
      exact key _ rfl rfl rfl rfl rfl ⟨[], by simp, by simp⟩ rfl rfl rfl htm rfl
    · exact hd _ _ hs
  · next hb =>
    obtain ⟨ho, hch, hr⟩ := hc.busyOpen (by rw [hb]; intro h; cases h)
    split at hs
    · refine h.finishDisconnect ?_ (fun h0 => hc.noTasks hch h0) hs
      rw [hb]; exact ⟨rfl, rfl⟩
    · unfold Conn.schedule at hs
      split at hs
      · cases hs
      · cases hs
        obtain ⟨⟨done, e, hs⟩, t1, t2, t3⟩ := h
        refine ⟨⟨done, ?_, ?_⟩, t1, t2, t3⟩
        · rw [hb] at e; exact e
        · simp only [Conn.live, hb] at hs; exact hs
  · cases hs; exact h

theorem Held.launch {c : Conn} (h : Held c) (hb : c.busy = .launching) (ok : Bool) : Held (c.launch ok) := by
  obtain ⟨⟨done, e, hs⟩, t1, t2, t3⟩ := h
  rw [hb] at e
  simp only [Conn.live, hb] at hs
  unfold Conn.launch
  split
  · exact ⟨⟨done, e, hs.tell (l := [.connecting]) (by simp [Client311.quiet])⟩, t1, t2, t3⟩
  · exact ⟨⟨done, e, hs.tell (l := [.connectRefused]) (by simp [Client311.quiet])⟩, t1, t2, t3⟩

theorem Held.setup {c : Conn} (h : Held c) (hb : c.busy = .idle) (r : Setup) : Held (c.setup r) := by
  unfold Conn.setup
  split
  · exact h.shutdown hb
  · exact ⟨h.store, h.timers, h.lastId, h.first⟩
  · simp only
    split
    · exact ⟨h.store, h.timers, h.lastId, h.first⟩
    · split
      · have := h.quiet (l := [.opened (c.nextChan + 1 - 1)]) (by simp [Client311.quiet])
        exact ⟨this.store, this.timers, this.lastId, this.first⟩
      · have := h.quiet (l := [.connectionComplete false]) (by simp [Client311.quiet])
        exact ⟨this.store, this.timers, this.lastId, this.first⟩

theorem Held.attempt {c c' : Conn} (h : Held c) (hc : Ctl c) (hb : c.busy = .idle) (hsc : c.reconnect = .scheduled)
    {ok : Bool} (hs : c.attempt ok = .ok c') : Held c' := by
  have hst := hc.scheduled hsc
  have hnd : c.state ≠ .disconnected := by rcases hst with h | h <;> rw [h] <;> intro h <;> cases h
  have hch : c.chan = none := by
    rcases hc.driver hnd hb with ⟨_, _, e⟩ | ⟨_, _, e⟩ | ⟨_, e, _⟩
    · exact absurd hsc e
    · exact absurd hsc e
    · exact e
  unfold Conn.attempt at hs
  split at hs
  · simp only [(hc.noChan hch).1, Bool.false_eq_true, if_false] at hs
    refine Held.release ?_ ?_ ?_ hs
    · have := h.quiet (l := [.disconnected]) (by simp [Client311.quiet])
      exact ⟨this.store, this.timers, this.lastId, this.first⟩
    · exact fun _ => hb
    · exact fun e _ => hc.noTasks hch e
  · split at hs
    · cases hs; exact ⟨h.store, h.timers, h.lastId, h.first⟩
    · cases hs; exact ⟨h.store, h.timers, h.lastId, h.first⟩

theorem Held.step {c c' : Conn} {e : Event} (h : Held c) (hc : Ctl c) (he : Enabled c e = true)
    (hs : step c e = .ok c') : Held c' := by
  cases e with
  | create kind size => exact h.create hs
  | connect clean => cases hs; exact h.connect hc clean
  | launch ok => cases hs; exact h.launch (by simpa [Enabled] using he) ok
  | advance => exact h.advance hc hs
  | disconnect =>
    cases hs
    unfold Conn.disconnect
    split
    · exact ⟨h.store, h.timers, h.lastId, h.first⟩
    · exact h
  | acquire => cases hs; exact ⟨h.store, h.timers, h.lastId, h.first⟩
  | release =>
    simp only [Enabled, decide_eq_true_eq] at he
    refine Held.release ?_ ?_ ?_ hs
    · exact ⟨h.store, h.timers, h.lastId, h.first⟩
    · exact fun e => (hc.off e).1
    · intro e e2
      have e : c.held - 1 = 0 := e
      have h1 : c.held = 1 := by have := he.1; omega
      have hch := (hc.off e2).2.2.1
      refine ⟨(hc.noChan hch).2.2.2, ?_⟩
      rw [List.eq_nil_iff_forall_not_mem]
      intro t ht
      have := (he.2 h1).2 t ht
      rw [hch] at this; cases this
  | setup r =>
    simp only [Enabled, decide_eq_true_eq] at he
    cases hs
    exact h.setup he.1 r
  | packet p =>
    simp only [Client311.step] at hs
    split at hs
    · cases hs
    · exact h.receive hs
  | ping => exact h.create hs
  | run k result =>
    simp only [Client311.step] at hs
    split at hs
    · cases hs; exact h
    · next uid chan hk => cases hs; exact h.run hk
  | cancel k =>
    simp only [Client311.step] at hs
    split at hs
    · cases hs; exact h
    · next uid chan hk => cases hs; exact h.cancel hk
  | timeout uid =>
    simp only [Client311.step] at hs
    split at hs
    · cases hs
    · exact h.finish hs
  | attempt ok =>
    simp only [Enabled, decide_eq_true_eq] at he
    exact h.attempt hc he.1 he.2 hs
  | disconnectTask => cases hs; exact ⟨h.store, h.timers, h.lastId, h.first⟩
  | close => cases hs; exact ⟨h.store, h.timers, h.lastId, h.first⟩
  | shutdown =>
    simp only [Enabled, decide_eq_true_eq] at he
    cases hs
    exact h.shutdown he.1

variable {allowed : Conn → Event → Prop}

theorem Reachable.inv {c : Conn} (h : Reachable allowed c) : Ctl c ∧ Held c := by
  induction h with
  | init => exact ⟨Ctl.init, Held.init⟩
  | step _ hd he _ hs ih => exact ⟨ih.1.step hd he hs, ih.2.step ih.1 he hs⟩

theorem complete_destroyed {c : Conn} {u : Nat} {o : Outcome} : (c.complete u o).destroyed = c.destroyed := by
  cases hr : c.reqs.get u with
  | some r => rw [complete_eq hr]
  | none => simp [Conn.complete, Conn.change, Conn.remove, Conn.tell, hr]

theorem change_destroyed {c : Conn} {u : Nat} {a b : Bool} : (c.change u a b).destroyed = c.destroyed := by
  cases hr : c.reqs.get u with
  | some r => rw [change_eq hr]
  | none => simp [Conn.change, hr]

theorem create_destroyed {c c' : Conn} {kind : Kind} {size : Nat} (h : c.create kind size = .ok c') :
    c'.destroyed = c.destroyed := by
  rcases create_cases h with ⟨e, _⟩ | ⟨e, _⟩ | ⟨r, _, ⟨_, e⟩ | ⟨_, _, _, ⟨_, e⟩ | ⟨_, _, _, _, e⟩ | ⟨_, _, e⟩⟩⟩ <;>
    cases e <;> rfl

theorem finish_destroyed {c c' : Conn} {id : Nat} {o : Outcome} (h : c.finish id o = .ok c') :
    c'.destroyed = c.destroyed := by
  rcases finish_cases h with ⟨_, e⟩ | ⟨u, _, ⟨_, e⟩ | ⟨_, _, e⟩⟩
  · cases e; rfl
  · cases e; exact complete_destroyed
  · cases e

theorem receive_destroyed {c c' : Conn} {chan : Nat} {p : Packet} (h : c.receive chan p = .ok c') :
    c'.destroyed = c.destroyed := by
  unfold Conn.receive at h
  split at h
  · cases h; rfl
  · cases h
    unfold Conn.connack
    split
    · rfl
    · split
      · simp only
        split <;> rfl
      · rfl
  · split at h
    · cases h; rfl
    · split at h
      · cases h; split <;> rfl
      · exact (finish_destroyed h).trans rfl
      · exact (finish_destroyed h).trans rfl
      · exact (finish_destroyed h).trans rfl
      · unfold Conn.suback at h
        split at h
        · cases h; rfl
        · split at h
          · cases h
          · split at h
            · cases h
            · split at h
              · cases h; rfl
              · exact (finish_destroyed h).trans rfl
      · cases h; rfl
      · cases h; rfl
      · cases h; rfl

theorem release_gone {c c' : Conn} (hd : c.destroyed = false) (hb : c.state = .disconnected → c.busy = .idle)
    (ht : c.held = 0 → c.state = .disconnected → c.ongoing = [] ∧ c.tasks = []) (hs : c.release = .ok c')
    (hg : c'.destroyed = true) : c'.live = [] := by
  rcases release_cases hs with ⟨rfl, hn⟩ | ⟨rfl, h0, _, hst⟩
  · rw [hd] at hg; cases hg
  · simp [Conn.destroyFinal, Conn.live, hb hst, (ht h0 hst).1, (ht h0 hst).2, Busy.todo]

theorem schedule_destroyed {c c' : Conn} (h : c.schedule = .ok c') : c'.destroyed = c.destroyed := by
  unfold Conn.schedule at h
  split at h
  · cases h
  · cases h; rfl

theorem advance_gone {c c' : Conn} (hc : Ctl c) (hd : c.destroyed = false) (hs : c.advance = .ok c')
    (hg : c'.destroyed = true) : c'.live = [] := by
  have no : ∀ {d : Conn}, d.destroyed = c.destroyed → d.destroyed = true → False := by
    intro d h1 h2; rw [h1, hd] at h2; cases h2
  unfold Conn.advance at hs
  split at hs
  · cases hs; exact (no rfl hg).elim
  · next all next hb =>
    obtain ⟨rq, tb, tm, e, htm⟩ := removeAll_eq all c
    obtain ⟨ho, hch, hr⟩ := hc.busyOpen (by rw [hb]; intro h; cases h)
    simp only at hs
    rw [e] at hs
    split at hs
    · cases hs; exact (no rfl hg).elim
    · exact (no ((schedule_destroyed hs).trans rfl) hg).elim
    · cases hs; exact (no rfl hg).elim
    · cases hs; exact (no rfl hg).elim
    · refine release_gone ?_ ?_ ?_ hs hg
      · exact hd
      · exact fun _ => rfl
      · exact fun h0 _ => hc.noTasks hch h0
  · next hb =>
    obtain ⟨ho, hch, hr⟩ := hc.busyOpen (by rw [hb]; intro h; cases h)
    split at hs
    · refine release_gone ?_ ?_ ?_ hs hg
      · exact hd
      · exact fun _ => rfl
      · exact fun h0 _ => hc.noTasks hch h0
    · exact (no ((schedule_destroyed hs).trans rfl) hg).elim
  · cases hs; exact (no rfl hg).elim

theorem attempt_gone {c c' : Conn} (hc : Ctl c) (hb : c.busy = .idle) (hsc : c.reconnect = .scheduled) {ok : Bool}
    (hd : c.destroyed = false) (hs : c.attempt ok = .ok c') (hg : c'.destroyed = true) : c'.live = [] := by
  have no : ∀ {d : Conn}, d.destroyed = c.destroyed → d.destroyed = true → False := by
    intro d h1 h2; rw [h1, hd] at h2; cases h2
  have hst := hc.scheduled hsc
  have hnd : c.state ≠ .disconnected := by rcases hst with h | h <;> rw [h] <;> intro h <;> cases h
  have hch : c.chan = none := by
    rcases hc.driver hnd hb with ⟨_, _, e⟩ | ⟨_, _, e⟩ | ⟨_, e, _⟩
    · exact absurd hsc e
    · exact absurd hsc e
    · exact e
  unfold Conn.attempt at hs
  split at hs
  · simp only [(hc.noChan hch).1, Bool.false_eq_true, if_false] at hs
    refine release_gone ?_ ?_ ?_ hs hg
    · exact hd
    · exact fun _ => hb
    · exact fun h0 _ => hc.noTasks hch h0
  · split at hs
    · cases hs; exact (no rfl hg).elim
    · cases hs; exact (no rfl hg).elim

/-- A destroyed connection has no requests. -/
theorem Reachable.destroyed {c : Conn} (h : Reachable allowed c) (hd : c.destroyed = true) : c.live = [] := by
  cases h with
  | init => cases hd
  | @step c0 _ e h0 hd0 he ha hs =>
    have hc := h0.inv.1
    have no : ∀ {d : Conn}, d.destroyed = c0.destroyed → d.destroyed = true → False := by
      intro d h1 h2; rw [h1, hd0] at h2; cases h2
    cases e with
    | create kind size => exact (no (create_destroyed hs) hd).elim
    | connect clean =>
      cases hs
      refine (no ?_ hd).elim
      unfold Conn.connect
      split <;> rfl
    | launch ok => cases hs; refine (no ?_ hd).elim; cases ok <;> rfl
    | advance => exact advance_gone hc hd0 hs hd
    | disconnect => cases hs; refine (no ?_ hd).elim; unfold Conn.disconnect; split <;> rfl
    | acquire => cases hs; exact (no rfl hd).elim
    | release =>
      simp only [Enabled, decide_eq_true_eq] at he
      refine release_gone ?_ ?_ ?_ hs hd
      · exact hd0
      · exact fun e => (hc.off e).1
      · intro e e2
        have e : c0.held - 1 = 0 := e
        have h1 : c0.held = 1 := by have := he.1; omega
        have hch := (hc.off e2).2.2.1
        refine ⟨(hc.noChan hch).2.2.2, ?_⟩
        rw [List.eq_nil_iff_forall_not_mem]
        intro t ht
        have := (he.2 h1).2 t ht
        rw [hch] at this; cases this
    | setup r =>
      cases hs
      refine (no ?_ hd).elim
      cases r with
      | failed => rfl
      | refused => rfl
      | unsent => simp only [Conn.setup]; split <;> rfl
      | opened => simp only [Conn.setup]; split <;> rfl
    | packet p =>
      simp only [Client311.step] at hs
      split at hs
      · cases hs
      · exact (no (receive_destroyed hs) hd).elim
    | ping => exact (no (create_destroyed hs) hd).elim
    | run k result =>
      simp only [Client311.step] at hs
      split at hs
      · cases hs; exact (no rfl hd).elim
      · next uid chan hk =>
        cases hs
        refine (no ?_ hd).elim
        unfold Conn.send
        split
        · rfl
        · split
          · exact complete_destroyed
          · refine complete_destroyed.trans ?_; split <;> rfl
          · exact change_destroyed
    | cancel k =>
      simp only [Client311.step] at hs
      split at hs
      · cases hs; exact (no rfl hd).elim
      · next uid chan hk =>
        cases hs
        refine (no ?_ hd).elim
        unfold Conn.cancelled
        split
        · rfl
        · split
          · exact change_destroyed
          · exact complete_destroyed
    | timeout uid =>
      simp only [Client311.step] at hs
      split at hs
      · cases hs
      · exact (no (finish_destroyed hs) hd).elim
    | attempt ok =>
      simp only [Enabled, decide_eq_true_eq] at he
      exact attempt_gone hc he.1 he.2 hd0 hs hd
    | disconnectTask => cases hs; exact (no rfl hd).elim
    | close => cases hs; exact (no rfl hd).elim
    | shutdown => cases hs; exact (no rfl hd).elim

end Mqtt.Client311
