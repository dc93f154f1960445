import Verif.Lemmas.Progress311Run

/-! What a disconnect does with the requests of a 3.1.1 connection. -/
namespace Mqtt.Client311

/-- No new tasks; what is put into the list of pending requests had one. -/
structure Fewer (c c' : Conn) : Prop where
  tasks : ∀ t ∈ c'.tasks, t ∈ c.tasks
  pending : ∀ u ∈ c'.pending, u ∈ c.pending ∨ u ∈ c.tasks.map (·.1)
  clean : c'.clean = c.clean

theorem Fewer.refl (c : Conn) : Fewer c c := ⟨fun _ h => h, fun _ h => .inl h, rfl⟩

theorem Fewer.same {c c' : Conn} (h1 : c'.tasks = c.tasks) (h2 : c'.pending = c.pending) (h3 : c'.clean = c.clean) :
    Fewer c c' := ⟨fun _ h => h1 ▸ h, fun _ h => .inl (h2 ▸ h), h3⟩

theorem Fewer.trans {a b c : Conn} (h : Fewer a b) (k : Fewer b c) : Fewer a c where
  tasks t ht := h.tasks t (k.tasks t ht)
  pending u hu := by
    rcases k.pending u hu with q | q
    · exact h.pending u q
    · obtain ⟨t, ht, e⟩ := List.mem_map.1 q
      exact .inr (List.mem_map.2 ⟨t, h.tasks t ht, e⟩)
  clean := k.clean.trans h.clean

theorem change_fewer (c : Conn) (u : Nat) (a b : Bool) : Fewer c (c.change u a b) := by
  unfold Conn.change
  split
  · exact .refl c
  · split
    · exact .refl c
    · exact .same rfl rfl rfl

theorem remove_fewer (c : Conn) (u : Nat) : Fewer c (c.remove u) := by
  unfold Conn.remove
  split
  · exact .refl c
  · exact .same rfl rfl rfl

theorem removes_fewer (us : List Nat) (c : Conn) : Fewer c (us.foldl Conn.remove c) := by
  induction us generalizing c with
  | nil => exact .refl c
  | cons u us ih => exact (remove_fewer c u).trans (ih _)

theorem complete_fewer (c : Conn) (u : Nat) (o : Outcome) : Fewer c (c.complete u o) :=
  ((Fewer.same rfl rfl rfl : Fewer c (c.tell (.completed u o))).trans (change_fewer _ _ _ _)).trans (remove_fewer _ _)

theorem tell_fewer (c : Conn) (t : Trace) : Fewer c (c.tell t) := .same rfl rfl rfl

theorem reject_fewer (c : Conn) (n : Nat) : Fewer c (c.reject n) := .same rfl rfl rfl

theorem finish_fewer {c c' : Conn} {id : Nat} {o : Outcome} (hs : c.finish id o = .ok c') : Fewer c c' := by
  rcases finish_cases hs with ⟨_, e⟩ | ⟨uid, _, ⟨_, e⟩ | ⟨_, _, e⟩⟩
  · cases e; exact .refl c
  · cases e
    refine (complete_fewer c uid o).trans ?_
    exact ⟨fun _ h => h, fun _ h => .inl (List.mem_filter.1 h).1, rfl⟩
  · cases e

theorem suback_fewer {c c' : Conn} {chan id codes : Nat} (hs : c.suback chan id codes = .ok c') : Fewer c c' := by
  unfold Conn.suback at hs
  split at hs
  · cases hs; exact .refl c
  · split at hs
    · cases hs
    · split at hs
      · cases hs
      · split at hs
        · cases hs; exact reject_fewer _ _
        · exact finish_fewer hs

theorem receive_fewer {c c' : Conn} {chan : Nat} {p : Packet} (hs : c.receive chan p = .ok c')
    (hd : c.state = .disconnecting) : Fewer c c' := by
  have hn : ¬ c.state = .connecting := by rw [hd]; simp
  unfold Conn.receive at hs
  split at hs
  · cases hs; exact tell_fewer _ _
  · cases hs
    unfold Conn.connack
    rw [if_pos (.inl hd)]
    exact tell_fewer _ _
  · rw [if_neg hn] at hs
    split at hs
    · cases hs
      split
      · exact (tell_fewer _ _).trans (tell_fewer _ _)
      · exact tell_fewer _ _
    · exact (tell_fewer _ _).trans (finish_fewer hs)
    · exact (tell_fewer _ _).trans (finish_fewer hs)
    · exact (tell_fewer _ _).trans (finish_fewer hs)
    · exact (tell_fewer _ _).trans (suback_fewer hs)
    · cases hs; exact (tell_fewer _ _).trans (tell_fewer _ _)
    · cases hs; exact (tell_fewer _ _).trans (tell_fewer _ _)
    · cases hs; exact reject_fewer _ _

theorem send_fewer (c : Conn) (u chan : Nat) (r : Sending) : Fewer c (c.send u chan r) := by
  unfold Conn.send
  split
  · exact .refl c
  · next q hq =>
    split
    · exact complete_fewer _ _ _
    · simp only
      split
      · exact complete_fewer _ _ _
      · exact (tell_fewer _ _).trans (complete_fewer _ _ _)
    · next timer topics =>
      simp only
      have h1 : Fewer c { c.tell (.sent u chan q.initiated) with
          reqs := (c.tell (.sent u chan q.initiated)).reqs.set u { q with
            initiated := true, topics := if q.kind.isSubscribe then topics else q.topics } } := .same rfl rfl rfl
      exact (h1.trans (change_fewer _ u true true)).trans (.same rfl rfl rfl)

theorem cancelled_fewer (c : Conn) (u : Nat) : ∀ v ∈ (c.cancelled u).pending, v ∈ c.pending ∨ v = u := by
  unfold Conn.cancelled
  split
  · exact fun _ h => .inl h
  · split
    · intro v hv
      simp only [List.mem_append, List.mem_singleton] at hv
      rcases hv with hv | hv
      · rw [show (c.change u true false).pending = c.pending by
          unfold Conn.change; split <;> (try split) <;> rfl] at hv
        exact .inl hv
      · exact .inr hv
    · intro v hv
      rw [show (c.complete u .notConnected).pending = c.pending by
        cases hr : c.reqs.get u with
        | some r => rw [complete_eq hr]
        | none => simp [Conn.complete, Conn.change, Conn.remove, Conn.tell, hr]] at hv
      exact .inl hv

theorem cancelled_tasks (c : Conn) (u : Nat) : (c.cancelled u).tasks = c.tasks ∧ (c.cancelled u).clean = c.clean := by
  unfold Conn.cancelled
  split
  · exact ⟨rfl, rfl⟩
  · split
    · unfold Conn.change
      split <;> (try split) <;> exact ⟨rfl, rfl⟩
    · cases hr : c.reqs.get u with
      | some r => rw [complete_eq hr]; exact ⟨rfl, rfl⟩
      | none => simp [Conn.complete, Conn.change, Conn.remove, Conn.tell, hr]

theorem create_fewer {c c' : Conn} {kind : Kind} {size : Nat} (hs : c.create kind size = .ok c')
    (hd : c.state = .disconnecting) : Fewer c c' := by
  unfold Conn.create at hs
  rw [if_pos hd] at hs
  cases hs
  exact tell_fewer _ _

theorem step_fewer {c c' : Conn} {e : Event} (hs : step c e = .ok c') (ha : e.isAside = true)
    (hd : c.state = .disconnecting) : Fewer c c' := by
  cases e with
  | create kind size => exact create_fewer hs hd
  | ping => exact create_fewer hs hd
  | packet p =>
    simp only [Client311.step] at hs
    split at hs
    · cases hs
    · exact receive_fewer hs hd
  | run k result =>
    simp only [Client311.step] at hs
    split at hs
    · cases hs; exact .refl c
    · cases hs
      refine Fewer.trans ?_ (send_fewer _ _ _ _)
      exact ⟨fun _ h => List.mem_of_mem_eraseIdx h, fun _ h => .inl h, rfl⟩
  | cancel k =>
    simp only [Client311.step] at hs
    split at hs
    · cases hs; exact .refl c
    · next uid chan hk =>
      cases hs
      obtain ⟨h1, h2⟩ := cancelled_tasks { c with tasks := c.tasks.eraseIdx k } uid
      refine ⟨fun t ht => ?_, fun u hu => ?_, h2⟩
      · rw [h1] at ht
        exact List.mem_of_mem_eraseIdx ht
      · rcases cancelled_fewer _ _ _ hu with q | q
        · exact .inl q
        · refine .inr (List.mem_map.2 ⟨(uid, chan), ?_, q.symm⟩)
          exact List.mem_of_getElem? hk
  | timeout uid =>
    simp only [Client311.step] at hs
    split at hs
    · cases hs
    · exact finish_fewer hs
  | close => cases hs; exact .same rfl rfl rfl
  | _ => cases ha

/-- The request is going to be cancelled with the session. -/
structure Doomed (uid : Nat) (c : Conn) : Prop where
  state : c.state = .disconnecting
  task : uid ∉ c.tasks.map (·.1)
  place : (c.chan ≠ none ∧ c.clean = true) ∨
    (∃ all todo, c.busy = .cancelling all todo (.shutdown .disconnecting) ∧ uid ∉ c.pending)

theorem Fewer.untasked {c c' : Conn} {uid : Nat} (h : Fewer c c') (ht : uid ∉ c.tasks.map (·.1)) :
    uid ∉ c'.tasks.map (·.1) := fun k => by
  obtain ⟨t, h1, h2⟩ := List.mem_map.1 k
  exact ht (List.mem_map.2 ⟨t, h.tasks t h1, h2⟩)

theorem Doomed.fewer {c c' : Conn} {uid : Nat} (h : Doomed uid c) (f : Fewer c c') (h1 : c'.state = c.state)
    (h2 : c'.busy = c.busy) (h3 : c'.chan = c.chan) : Doomed uid c' where
  state := h1.trans h.state
  task := f.untasked h.task
  place := by
    rcases h.place with ⟨k1, k2⟩ | ⟨all, todo, k1, k2⟩
    · exact .inl ⟨h3 ▸ k1, f.clean.trans k2⟩
    · refine .inr ⟨all, todo, h2.trans k1, fun hp => ?_⟩
      rcases f.pending _ hp with q | q
      · exact k2 q
      · exact h.task q

theorem release_less {c c' : Conn} (hs : c.release = .ok c') : c'.tasks = c.tasks ∧ ∀ u ∈ c'.pending, u ∈ c.pending := by
  unfold Conn.release at hs
  split at hs
  · split at hs <;> cases hs
    exact ⟨rfl, fun _ h => by cases h⟩
  · cases hs; exact ⟨rfl, fun _ h => h⟩

/-- It is cancelled before `on_disconnect` is invoked. -/
theorem Doomed.step {c c' : Conn} {e : Event} {uid : Nat} (h : Doomed uid c) (hc : Ctl c) (he : Enabled c e = true)
    (hs : Client311.step c e = .ok c') (hc' : Ctl c') : Doomed uid c' ∨ uid ∉ c'.live := by
  by_cases ha : e.isAside = true
  · obtain ⟨g, w, a⟩ := (step_aside hc he hs ha).1
    exact .inl (h.fewer (step_fewer hs ha h.state) a.state a.busy a.chan)
  cases e with
  | connect clean =>
    cases hs
    have e : c.connect clean = c.tell .connectRefused := by
      unfold Conn.connect; rw [if_pos (by rw [h.state]; simp)]
    rw [e]
    exact .inl (h.fewer (tell_fewer _ _) rfl rfl rfl)
  | launch ok =>
    simp only [Enabled, decide_eq_true_eq] at he
    have := (hc.conn (by rw [he]; rfl)).1
    rw [h.state] at this; cases this
  | advance =>
    simp only [Enabled, decide_eq_true_eq] at he
    rcases h.place with ⟨k1, _⟩ | ⟨all, todo, k1, k2⟩
    · exact absurd (hc.idle k1).1 he.1
    · simp only [Client311.step] at hs
      cases todo with
      | cons u todo =>
        simp only [Conn.advance, k1] at hs
        cases hs
        exact .inl ⟨h.state, h.task, .inr ⟨all, todo, rfl, k2⟩⟩
      | nil =>
        right
        simp only [Conn.advance, k1] at hs
        have f := removes_fewer all c
        generalize all.foldl Conn.remove c = d at hs f
        have h1 := (finishDisconnect_ends hs).1
        have h2 := hc'.off h1
        obtain ⟨h3, h4⟩ := release_less hs
        simp only at h3 h4
        have h5 := (hc'.noChan h2.2.2.1).2.2.2
        simp only [Conn.live, h2.1, Busy.todo, h5, List.append_nil, List.mem_append, not_or]
        refine ⟨fun q => ?_, ?_⟩
        · rcases f.pending _ (h4 _ q) with q | q
          · exact k2 q
          · exact h.task q
        · rw [h3]; exact f.untasked h.task
  | disconnect =>
    cases hs
    have e : c.disconnect = c := by
      unfold Conn.disconnect; rw [if_neg (by rw [h.state]; simp)]
    rw [e]
    exact .inl h
  | acquire => cases hs; exact .inl (h.fewer (.same rfl rfl rfl) rfl rfl rfl)
  | release =>
    rw [release_kept hs (by simp [h.state])]
    exact .inl (h.fewer (.same rfl rfl rfl) rfl rfl rfl)
  | setup r =>
    simp only [Enabled, decide_eq_true_eq] at he
    rcases h.place with ⟨k1, _⟩ | ⟨all, todo, k1, k2⟩
    · rw [(hc.idle k1).2] at he; cases he.2
    · rw [k1] at he; cases he.1
  | packet p =>
    simp only [Client311.step] at hs
    split at hs
    · cases hs
    · have f := receive_fewer hs h.state
      have a : p = .connack true → c'.state = c.state ∧ c.state ≠ .connected := by
        rintro rfl
        refine ⟨?_, by simp [h.state]⟩
        simp only [Conn.receive] at hs
        cases hs
        unfold Conn.connack
        rw [if_pos (.inl h.state)]
        rfl
      have a := receive_aside hs a
      exact .inl (h.fewer f a.state a.busy a.chan)
  | attempt ok =>
    simp only [Enabled, decide_eq_true_eq] at he
    exfalso
    rcases h.place with ⟨k1, _⟩ | ⟨all, todo, k1, k2⟩
    · rcases hc.driver (by simp [h.state]) he.1 with q | q | q
      · exact k1 q.2.1
      · exact q.2.2 he.2
      · exact k1 q.2.1
    · rw [k1] at he; cases he.1
  | disconnectTask =>
    cases hs
    exact .inl (h.fewer (.same rfl rfl rfl) rfl rfl rfl)
  | shutdown =>
    simp only [Enabled, decide_eq_true_eq] at he
    cases hs
    rcases h.place with ⟨_, k2⟩ | ⟨all, todo, k1, _⟩
    · left
      refine ⟨?_, h.task, .inr ⟨if c.clean then c.ongoing ++ c.pending else [],
        if c.clean then c.ongoing ++ c.pending else [], ?_, ?_⟩⟩
      · show (if c.state = .connected then State.reconnecting else c.state) = .disconnecting
        rw [h.state]; rfl
      · show Busy.cancelling _ _ (.shutdown c.state) = .cancelling _ _ (.shutdown .disconnecting)
        rw [h.state]
      · show uid ∉ (if c.clean then [] else _)
        rw [k2]; simp
    · rw [k1] at he; cases he.1
  | _ => exact absurd rfl ha

theorem completions_le {a l : List Trace} (uid : Nat) : completions a uid ≤ completions (a ++ l) uid := by
  unfold completions
  rw [List.countP_append]
  omega

theorem Run.doomed {c d : Conn} {es : List Event} {n uid : Nat} (r : Run c es n d)
    (h : Reachable (fun _ _ => True) c) (hu : Doomed uid c) (ha : wasAccepted c.log uid) :
    Doomed uid d ∨ completions d.log uid ≠ 0 := by
  induction r with
  | nil => exact .inl hu
  | @snoc es n d d' e r0 hd0 he hs ih =>
    have hr := r0.reachable h
    have hr' := hr.step hd0 he trivial hs
    obtain ⟨m, hm⟩ := step_grows hs
    rcases ih with k | k
    · rcases k.step hr.inv.1 he hs hr'.inv.1 with q | q
      · exact .inl q
      · right
        obtain ⟨⟨done, e, hst⟩, _⟩ := hr'.inv.2
        obtain ⟨l, hl⟩ := r0.grows
        obtain ⟨i, kd, s, ha⟩ := ha
        have : wasAccepted d'.log uid := ⟨i, kd, s, by rw [hm, hl]; simp [ha]⟩
        rw [hst.once, if_pos ⟨(hst.acc uid).1 this, q⟩]
        simp
    · right
      rw [hm]
      have := completions_le (a := d.log) (l := m) uid
      omega

end Mqtt.Client311
