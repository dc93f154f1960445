import Verif.Lemmas.Client311CtlStep

/-! Every request of the 3.1.1 connection is in exactly one place. -/
namespace Mqtt.Client311

theorem perm_eraseIdx {α : Type} {l : List α} {k : Nat} {a : α} (h : l[k]? = some a) : l.Perm (a :: l.eraseIdx k) := by
  induction l generalizing k with
  | nil => simp at h
  | cons b l ih =>
    cases k with
    | zero => simp at h; subst h; exact List.Perm.refl _
    | succ k =>
      simp only [List.getElem?_cons_succ] at h
      exact ((ih h).cons b).trans (List.Perm.swap _ _ _)

theorem perm_filter_ne {l : List Nat} {u : Nat} (h : l.Nodup) (hu : u ∈ l) : l.Perm (u :: l.filter (· ≠ u)) := by
  induction l with
  | nil => simp at hu
  | cons a l ih =>
    obtain ⟨ha, hl⟩ := List.nodup_cons.1 h
    by_cases e : a = u
    · subst e
      have : (a :: l).filter (· ≠ a) = l := by
        rw [List.filter_cons_of_neg (by simp), List.filter_eq_self]
        intro x hx
        simp only [ne_eq, decide_not, Bool.not_eq_eq_eq_not, Bool.not_true, decide_eq_false_iff_not]
        rintro rfl
        exact ha hx
      rw [this]
    · rw [List.filter_cons_of_pos (by simpa using e)]
      have hu' : u ∈ l := by
        rcases List.mem_cons.1 hu with h | h
        · exact absurd h.symm e
        · exact h
      exact ((ih hl hu').cons a).trans (List.Perm.swap _ _ _)

theorem filter_ne_of_not_mem {l : List Nat} {u : Nat} (h : u ∉ l) : l.filter (· ≠ u) = l := by
  rw [List.filter_eq_self]
  intro x hx
  simp only [ne_eq, decide_not, Bool.not_eq_eq_eq_not, Bool.not_true, decide_eq_false_iff_not]
  rintro rfl
  exact h hx

/-- A request taken from one of the lists. -/
theorem perm_takeOut {p o t d : List Nat} {u : Nat} (hn : (p ++ o ++ t ++ d).Nodup) (hu : u ∈ o ∨ u ∈ p) :
    (p ++ o ++ t ++ d).Perm (u :: (p.filter (· ≠ u) ++ o.filter (· ≠ u) ++ t ++ d)) := by
  have hm : u ∈ p ++ o := by
    rcases hu with h | h
    · exact List.mem_append.2 (.inr h)
    · exact List.mem_append.2 (.inl h)
  have hn1 : (p ++ o).Nodup := by
    rw [List.append_assoc (p ++ o)] at hn
    exact List.Nodup.sublist (List.sublist_append_left _ _) hn
  have := perm_filter_ne hn1 hm
  rw [List.filter_append] at this
  rw [List.append_assoc (p ++ o), List.append_assoc (p.filter _ ++ o.filter _), ← List.cons_append]
  exact this.append_right _

theorem perm_ongoing (p o t d : List Nat) (u : Nat) :
    (p ++ (o ++ [u]) ++ t ++ d).Perm (u :: (p ++ o ++ t ++ d)) := by
  have := List.perm_middle (a := u) (l₁ := p ++ o) (l₂ := t ++ d)
  simpa [List.append_assoc] using this

theorem Held.quiet {c : Conn} (h : Held c) {l : List Trace} (hq : ∀ t ∈ l, quiet t = true) :
    Held { c with log := c.log ++ l } := by
  obtain ⟨⟨done, e, hs⟩, h1, h2, h3⟩ := h
  exact ⟨⟨done, e, hs.tell hq⟩, h1, h2, h3⟩

theorem Held.tell {c : Conn} (h : Held c) {t : Trace} (hq : Client311.quiet t = true) : Held (c.tell t) :=
  h.quiet (l := [t]) (by simpa using hq)

theorem Held.create {c c' : Conn} {kind : Kind} {size : Nat} (h : Held c) (hs : c.create kind size = .ok c') : Held c' := by
  have hr : ∀ r, searchId (fun id => (c.table.get id).isSome) c.lastId 65536 c.lastId = r → 1 ≤ r.1 ∧ r.1 ≤ 65535 := by
    intro r hr
    have := searchId_range (fun id => (c.table.get id).isSome) c.lastId 65536 c.lastId h.lastId (by omega)
    rwa [hr] at this
  have hf : ∀ r, searchId (fun id => (c.table.get id).isSome) c.lastId 65536 c.lastId = r → r.2 = true →
      c.table.get r.1 = none := by
    intro r hr h2
    have := searchId_free (fun id => (c.table.get id).isSome) c.lastId 65536 c.lastId
    rw [hr] at this
    simpa using this h2
  rcases create_cases hs with ⟨e, _⟩ | ⟨e, _⟩ | ⟨r, hsr, ⟨_, e⟩ | ⟨h2, _, _, ⟨_, e⟩ | ⟨hc, chan, hsl, hch, e⟩ | ⟨_, _, e⟩⟩⟩
  · cases e; exact h.tell rfl
  · cases e; exact h.tell rfl
  · cases e
    have := h.quiet (l := [.refused .full]) (by simp [Client311.quiet])
    exact ⟨this.store, this.timers, (hr r hsr).2, fun e => by have := (hr r hsr).1; rw [show r.1 = 0 from e] at this; omega⟩
  · cases e
    obtain ⟨⟨done, e, hs'⟩, h1, _, _⟩ := h
    refine ⟨⟨done, e, ?_⟩, h1, (hr r hsr).2, fun e => by have := (hr r hsr).1; rw [show r.1 = 0 from e] at this; omega⟩
    refine (hs'.create (r := newRequest kind r.1 size) (hr r hsr) (hf r hsr h2)).perm ?_ (List.Perm.refl _)
    simp only [Conn.live, List.append_assoc]
    exact List.perm_middle
  · cases e
    obtain ⟨⟨done, e, hs'⟩, h1, _, _⟩ := h
    refine ⟨⟨done, e, ?_⟩, h1, (hr r hsr).2, fun e => by have := (hr r hsr).1; rw [show r.1 = 0 from e] at this; omega⟩
    refine (hs'.create (r := newRequest kind r.1 size) (hr r hsr) (hf r hsr h2)).perm ?_ (List.Perm.refl _)
    simp only [Conn.live, Conn.added, List.map_append, List.map_cons, List.map_nil]
    rw [← List.append_assoc (c.pending ++ c.ongoing), List.append_assoc _ [c.nextUid]]
    exact List.perm_middle
  · cases e

theorem del_eq_nil {m : AMap Nat Nat} (h : m = []) (k : Nat) : m.del k = [] := by rw [h]; rfl

/-- A request in the table is completed. -/
theorem Held.finish {c c' : Conn} {id : Nat} {o : Outcome} (h : Held c) (hs : c.finish id o = .ok c') : Held c' := by
  rcases finish_cases hs with ⟨_, e⟩ | ⟨uid, ht, ⟨hm, e⟩ | ⟨_, _, e⟩⟩
  · cases e; exact h
  · cases e
    obtain ⟨⟨done, e, hs'⟩, h1, h2, h3⟩ := h
    obtain ⟨r, hr, hid⟩ := (hs'.tab id uid).1 ht
    rw [complete_eq hr]
    refine ⟨⟨done, e, ?_⟩, ?_, h2, fun e => del_eq_nil (h3 e) _⟩
    · exact hs'.complete o hr (perm_takeOut (List.Nodup.sublist (List.sublist_append_left _ _) hs'.nodup) hm)
    · intro v hv
      obtain ⟨hv1, hv2⟩ := List.mem_filter.1 hv
      exact List.mem_filter.2 ⟨h1 v hv1, hv2⟩
  · cases e

/-- The outgoing task of a request has been taken from the queue. -/
theorem live_task {c : Conn} {k u chan : Nat} (hk : c.tasks[k]? = some (u, chan)) :
    c.live.Perm (u :: ({ c with tasks := c.tasks.eraseIdx k } : Conn).live) := by
  have := (perm_eraseIdx hk).map (·.1)
  simp only [Conn.live]
  simp only [List.map_cons] at this
  refine ((this.append_left _).append_right _).trans ?_
  rw [List.append_assoc, List.append_assoc _ _ c.busy.todo, List.cons_append]
  exact List.perm_middle

theorem Held.run {c : Conn} {k u chan : Nat} {result : Sending} (h : Held c) (hk : c.tasks[k]? = some (u, chan)) :
    Held (({ c with tasks := c.tasks.eraseIdx k } : Conn).send u chan result) := by
  obtain ⟨⟨done, e, hs⟩, h1, h2, h3⟩ := h
  have hp := live_task hk
  have hu : u ∈ c.live := hp.mem_iff.2 (List.mem_cons_self ..)
  obtain ⟨r, hr⟩ := hs.live_isSome hu
  have hnd : (u :: ({ c with tasks := c.tasks.eraseIdx k } : Conn).live).Nodup :=
    hp.nodup_iff.1 (List.Nodup.sublist (List.sublist_append_left _ _) hs.nodup)
  have hno : u ∉ c.ongoing := fun hm => (List.nodup_cons.1 hnd).1 (by simp [Conn.live, hm])
  have hcomp : ∀ (l : List Trace) (o : Outcome), (∀ t ∈ l, Client311.quiet t = true) →
      Held (({ c with tasks := c.tasks.eraseIdx k, log := c.log ++ l } : Conn).complete u o) := by
    intro l o hq
    rw [complete_eq (c := { c with tasks := c.tasks.eraseIdx k, log := c.log ++ l }) (r := r) hr]
    refine ⟨⟨done, e, (hs.tell hq).complete o hr hp⟩, ?_, h2, fun e => del_eq_nil (h3 e) _⟩
    intro v hv
    exact h1 v (List.mem_filter.1 hv).1
  unfold Conn.send
  rw [show ({ c with tasks := c.tasks.eraseIdx k } : Conn).reqs.get u = some r from hr]
  simp only
  split
  · have := hcomp [] .failed (by simp)
    rwa [List.append_nil] at this
  · split
    · have := hcomp [] .success (by simp)
      rwa [List.append_nil] at this
    · exact hcomp [.sent u chan r.initiated] .success (by simp [Client311.quiet])
  · next timer topics =>
    generalize (if r.kind.isSubscribe = true then topics else r.topics) = tp
    rw [change_eq (AMap.get_set_same ..)]
    refine ⟨⟨done, e, ?_⟩, ?_, h2, h3⟩
    · have hs2 := (hs.tell (l := [.sent u chan r.initiated]) (by simp [Client311.quiet])).update
        (r' := { r with initiated := true, topics := tp }) hr rfl rfl rfl
      have hs3 : Store c.nextUid (if r.size = 0 then c.reqs.set u { r with initiated := true, topics := tp }
          else (c.reqs.set u { r with initiated := true, topics := tp }).set u
            { r with initiated := true, topics := tp, incomplete := true, unacked := true }) c.table
          (c.log ++ [.sent u chan r.initiated]) c.live done := by
        split
        · exact hs2
        · exact hs2.update (AMap.get_set_same ..) rfl rfl rfl
      refine hs3.perm ?_ (List.Perm.refl _)
      refine List.Perm.trans ?_ hp.symm
      exact perm_ongoing c.pending c.ongoing ((c.tasks.eraseIdx k).map (·.1)) c.busy.todo u
    · intro v hv
      simp only at hv ⊢
      split at hv
      · rcases List.mem_append.1 hv with hv | hv
        · exact List.mem_append.2 (.inl (h1 v hv))
        · exact List.mem_append.2 (.inr hv)
      · exact List.mem_append.2 (.inl (h1 v hv))

theorem Held.cancel {c : Conn} {k u chan : Nat} (h : Held c) (hk : c.tasks[k]? = some (u, chan)) :
    Held (({ c with tasks := c.tasks.eraseIdx k } : Conn).cancelled u) := by
  obtain ⟨⟨done, e, hs⟩, h1, h2, h3⟩ := h
  have hp := live_task hk
  have hu : u ∈ c.live := hp.mem_iff.2 (List.mem_cons_self ..)
  obtain ⟨r, hr⟩ := hs.live_isSome hu
  unfold Conn.cancelled
  rw [show ({ c with tasks := c.tasks.eraseIdx k } : Conn).reqs.get u = some r from hr]
  simp only
  split
  · rw [change_eq (c := { c with tasks := c.tasks.eraseIdx k }) (r := r) hr]
    refine ⟨⟨done, e, ?_⟩, h1, h2, h3⟩
    have hs3 : Store c.nextUid (if r.size = 0 then c.reqs else c.reqs.set u { r with incomplete := true, unacked := false })
        c.table c.log c.live done := by
      split
      · exact hs
      · exact hs.update hr rfl rfl rfl
    refine hs3.perm ?_ (List.Perm.refl _)
    refine List.Perm.trans ?_ hp.symm
    simp only [Conn.live, List.append_assoc]
    exact List.perm_middle
  · rw [complete_eq (c := { c with tasks := c.tasks.eraseIdx k }) (r := r) hr]
    refine ⟨⟨done, e, hs.complete _ hr hp⟩, ?_, h2, fun e => del_eq_nil (h3 e) _⟩
    intro v hv
    exact h1 v (List.mem_filter.1 hv).1

theorem Held.congr {c : Conn} (h : Held c) (f : Conn) (h1 : f.busy = c.busy) (h2 : f.nextUid = c.nextUid)
    (h3 : f.reqs = c.reqs) (h4 : f.table = c.table) (h5 : f.log = c.log) (h6 : f.live.Perm c.live)
    (h7 : f.timers = c.timers) (h8 : f.ongoing = c.ongoing) (h9 : f.lastId = c.lastId) : Held f := by
  obtain ⟨⟨done, e, hs⟩, t1, t2, t3⟩ := h
  refine ⟨⟨done, by rw [h1, e], ?_⟩, by rw [h7, h8]; exact t1, by rw [h9]; exact t2, by rw [h9, h4]; exact t3⟩
  rw [h2, h3, h4, h5]
  exact hs.perm h6 (List.Perm.refl _)

theorem Held.reject {c : Conn} (h : Held c) (chan : Nat) : Held (c.reject chan) := by
  have h3 := h.quiet (l := [.rejected chan]) (by simp [Client311.quiet])
  exact ⟨h3.store, h3.timers, h3.lastId, h3.first⟩

theorem Held.suback {c c' : Conn} (h : Held c) {chan id codes : Nat} (hs : c.suback chan id codes = .ok c') :
    Held c' := by
  unfold Conn.suback at hs
  split at hs
  · cases hs; exact h
  · split at hs
    · cases hs
    · split at hs
      · cases hs
      · split at hs
        · cases hs; exact h.reject _
        · exact h.finish hs

theorem Held.connack {c : Conn} (h : Held c) {chan : Nat} {acc : Bool} : Held (c.connack chan acc) := by
  unfold Conn.connack
  split
  · exact h.tell rfl
  split
  · have hp : ({ c with tasks := c.tasks ++ c.pending.map (·, chan), pending := [] } : Conn).live.Perm c.live := by
      simp only [Conn.live, List.map_append, List.map_map, List.nil_append]
      have e : List.map ((fun x : Nat × Nat => x.1) ∘ fun x => (x, chan)) c.pending = c.pending := by
        rw [show ((fun x : Nat × Nat => x.1) ∘ fun x => (x, chan)) = id from rfl, List.map_id]
      rw [e]
      refine List.Perm.append_right _ ?_
      rw [← List.append_assoc, List.append_assoc c.pending]
      exact List.perm_append_comm
    have h1 := h.congr { c with
      state := .connected, tasks := c.tasks ++ c.pending.map (·, chan), pending := [], count := c.count + 1 }
      rfl rfl rfl rfl rfl hp rfl rfl rfl
    have h2 := h1.quiet (l := [.processed chan (.connack acc)]) (by simp [Client311.quiet])
    simp only
    split
    · exact h2.tell rfl
    · have h3 := h2.quiet (l := [.connectionComplete true]) (by simp [Client311.quiet])
      exact ⟨h3.store, h3.timers, h3.lastId, h3.first⟩
  · have h3 := h.quiet (l := [.processed chan (.connack acc), .rejected chan]) (by simp [Client311.quiet])
    exact ⟨h3.store, h3.timers, h3.lastId, h3.first⟩

theorem Held.receive {c c' : Conn} (h : Held c) {chan : Nat} {p : Packet} (hs : c.receive chan p = .ok c') :
    Held c' := by
  unfold Conn.receive at hs
  split at hs
  · cases hs; exact h.tell rfl
  · cases hs; exact h.connack
  · split at hs
    · cases hs; exact h.reject _
    · split at hs
      · cases hs
        split
        · exact (h.tell rfl).tell rfl
        · exact h.tell rfl
      · exact (h.tell rfl).finish hs
      · exact (h.tell rfl).finish hs
      · exact (h.tell rfl).finish hs
      · exact (h.tell rfl).suback hs
      · cases hs; exact (h.tell rfl).tell rfl
      · cases hs; exact (h.tell rfl).tell rfl
      · cases hs; exact h.reject _

theorem Held.idle {c : Conn} (h : Held c) (hb : c.busy = .idle) :
    Store c.nextUid c.reqs c.table c.log c.live [] := by
  obtain ⟨⟨done, e, hs⟩, _⟩ := h
  rw [hb] at e
  have : done = [] := by
    have := e.symm
    simp [Busy.all, Busy.todo] at this
    exact this
  rwa [this] at hs

theorem Held.connect {c : Conn} (h : Held c) (hc : Ctl c) (clean : Bool) : Held (c.connect clean) := by
  unfold Conn.connect
  split
  · exact h.tell rfl
  next hst =>
  have hb := (hc.off (by simpa using hst)).1
  have hs := h.idle hb
  refine ⟨⟨[], rfl, ?_⟩, h.timers, h.lastId, h.first⟩
  refine hs.perm ?_ (List.Perm.refl _)
  simp only [Conn.live, hb, Busy.todo]
  cases clean with
  | false => exact List.Perm.refl _
  | true =>
    simp only [if_true, List.nil_append, List.append_nil, List.append_assoc]
    rw [← List.append_assoc]
    exact List.perm_append_comm

theorem Held.shutdown {c : Conn} (h : Held c) (hb : c.busy = .idle) : Held c.shutdown := by
  have hs := h.idle hb
  unfold Conn.shutdown
  refine ⟨⟨[], rfl, ?_⟩, by simp, h.lastId, h.first⟩
  refine hs.perm ?_ (List.Perm.refl _)
  simp only [Conn.live, hb, Busy.todo]
  cases c.clean with
  | false => simp
  | true =>
    simp only [if_true, List.nil_append, List.append_nil]
    refine List.perm_append_comm.trans ?_
    exact List.Perm.append_right _ List.perm_append_comm

theorem Store.removeAll {n : Nat} {log : List Trace} {live : List Nat} (l : List Nat) {c : Conn}
    (h : Store n c.reqs c.table log live l) :
    Store n (l.foldl Conn.remove c).reqs (l.foldl Conn.remove c).table log live [] := by
  induction l generalizing c with
  | nil => exact h
  | cons u l ih =>
    rw [List.foldl_cons]
    obtain ⟨r, hr⟩ := Option.isSome_iff_exists.1 ((h.places u).2 (.inr (List.mem_cons_self ..)))
    apply ih
    unfold Conn.remove
    rw [hr]
    exact h.drop hr

theorem Store.completeAll {n : Nat} {reqs : AMap Nat Request} {table : AMap Nat Nat} {log : List Trace} (l : List Nat)
    (o : Outcome) (h : Store n reqs table log l []) :
    ∃ table', Store n (l.foldl (fun m u => m.del u) reqs) table' (log ++ l.map (.completed · o)) [] [] := by
  induction l generalizing reqs table log with
  | nil => exact ⟨table, by simpa using h⟩
  | cons u l ih =>
    obtain ⟨r, hr⟩ := h.live_isSome (List.mem_cons_self ..)
    have := h.complete o hr (List.Perm.refl _)
    obtain ⟨t, ht⟩ := ih this
    refine ⟨t, ?_⟩
    simpa using ht

theorem Store.table_nil {n : Nat} {reqs : AMap Nat Request} {table : AMap Nat Nat} {log : List Trace}
    (h : Store n reqs table log [] []) : table = [] ∧ reqs = [] := by
  have hr : reqs = [] := by
    cases reqs with
    | nil => rfl
    | cons e m =>
      have := (h.places e.1).1 (AMap.get_isSome_iff.2 ⟨e.2, List.mem_cons_self ..⟩)
      simp at this
  refine ⟨?_, hr⟩
  cases table with
  | nil => rfl
  | cons e m =>
    have := (h.tab e.1 e.2).1 ((AMap.mem_iff_get h.tkeys).1 (List.mem_cons_self ..))
    rw [hr] at this
    simp at this

/-- Nothing is left when the connection is destroyed. -/
theorem Held.destroyFinal {c : Conn} (h : Held c) (hb : c.busy = .idle) (ho : c.ongoing = []) (ht : c.tasks = []) :
    Held c.destroyFinal ∧ c.destroyFinal.live = [] := by
  have hs := h.idle hb
  have hl : c.live = c.pending := by simp [Conn.live, hb, ho, ht, Busy.todo]
  rw [hl] at hs
  obtain ⟨t, hs2⟩ := hs.completeAll c.pending .destroyed
  have hs3 := hs2.tell (l := [.destroyed]) (by simp [Client311.quiet])
  rw [hs3.table_nil.1] at hs3
  have hl2 : c.destroyFinal.live = [] := by simp [Conn.destroyFinal, Conn.live, hb, ho, ht, Busy.todo]
  refine ⟨⟨⟨[], by simp [Conn.destroyFinal, hb, Busy.all, Busy.todo], ?_⟩, h.timers, h.lastId, fun _ => rfl⟩, hl2⟩
  rw [hl2]
  exact hs3

theorem Held.release {c c' : Conn} (h : Held c) (hb : c.state = .disconnected → c.busy = .idle)
    (ht : c.held = 0 → c.state = .disconnected → c.ongoing = [] ∧ c.tasks = []) (hs : c.release = .ok c') : Held c' := by
  rcases release_cases hs with ⟨rfl, hn⟩ | ⟨rfl, h0, _, hst⟩
  · exact h
  · exact (h.destroyFinal (hb hst) (ht h0 hst).1 (ht h0 hst).2).1

theorem Ctl.noTasks {c : Conn} (h : Ctl c) (hc : c.chan = none) (h0 : c.held = 0) : c.ongoing = [] ∧ c.tasks = [] := by
  refine ⟨(h.noChan hc).2.2.2, ?_⟩
  rw [List.eq_nil_iff_forall_not_mem]
  intro t ht
  have := h.dead h0 t ht
  rw [hc] at this; cases this

/-- With nothing to cancel the place in `s_mqtt_client_shutdown` does not matter. -/
theorem Held.rebusy {c : Conn} (h : Held c) {all : List Nat} {next : Next} (hb : c.busy = .cancelling all [] next) :
    ∀ f : Conn, f.busy.all = [] → f.busy.todo = [] → f.nextUid = c.nextUid →
      f.reqs = (all.foldl Conn.remove c).reqs → f.table = (all.foldl Conn.remove c).table →
      (∃ l, f.log = c.log ++ l ∧ ∀ t ∈ l, Client311.quiet t = true) →
      f.pending = c.pending → f.ongoing = c.ongoing → f.tasks = c.tasks → (∀ u ∈ f.timers, u ∈ c.timers) →
      f.lastId = c.lastId → Held f := by
  intro f h1 h2 h3 h4 h5 h6 h7 h8 h9 h10 h11
  obtain ⟨⟨done, e, hs⟩, t1, t2, t3⟩ := h
  rw [hb] at e
  simp only [Busy.all, Busy.todo, List.append_nil] at e
  subst e
  have hs2 := hs.removeAll all
  obtain ⟨l, hl, hq⟩ := h6
  refine ⟨⟨[], by rw [h1, h2]; rfl, ?_⟩, fun u hu => by rw [h8]; exact t1 u (h10 u hu), by rw [h11]; exact t2, ?_⟩
  · rw [h3, h4, h5, hl]
    have e : f.live = c.live := by
      simp only [Conn.live, h7, h8, h9, h2, hb]
      rfl
    rw [e]
    exact hs2.tell hq
  · rw [h11, h5]
    intro e
    have := t3 e
    clear hs hs2 hb h4 h5 h7 h8 h9 h10
    revert this
    generalize c = d
    induction all generalizing d with
    | nil => exact fun h => h
    | cons u l ih =>
      intro hd
      rw [List.foldl_cons]
      apply ih
      unfold Conn.remove
      split
      · exact hd
      · exact del_eq_nil hd _

theorem Held.finishDisconnect {c c' : Conn} (h : Held c) (hbt : c.busy.all = [] ∧ c.busy.todo = []) {prev : State}
    (ht : c.held = 0 → c.ongoing = [] ∧ c.tasks = []) (hs : c.finishDisconnect prev = .ok c') : Held c' := by
  unfold Conn.finishDisconnect at hs
  refine Held.release ?_ ?_ ?_ hs
  rotate_left
  · exact fun _ => rfl
  · exact fun e _ => ht e
  have hq : ∀ t ∈ (match prev with
      | .connecting => [Trace.connectionComplete false]
      | .connected => [.disconnected]
      | .disconnecting => [.disconnected]
      | _ => []), Client311.quiet t = true := by
    intro t htm
    split at htm <;> simp at htm <;> subst htm <;> rfl
  have h2 := h.quiet hq
  obtain ⟨⟨done, e, hs⟩, t1, t2, t3⟩ := h2
  refine ⟨⟨done, ?_, ?_⟩, t1, t2, t3⟩
  · have : c.busy.all = done ++ c.busy.todo := e
    rw [hbt.1, hbt.2] at this
    exact this
  · refine hs.perm ?_ (List.Perm.refl _)
    have e1 : c.live = c.pending ++ c.ongoing ++ c.tasks.map (·.1) := by simp [Conn.live, hbt.2]
    exact e1 ▸ List.Perm.of_eq (by simp [Conn.live, Busy.todo])

end Mqtt.Client311
