import Verif.Lemmas.Client311Step

/-! Preservation of the control invariant of the 3.1.1 connection. -/
namespace Mqtt.Client311

macro "ctl" h:term : tactic => `(tactic| exact ⟨($h).off, ($h).pin, ($h).conn, ($h).busyOpen, ($h).driver, ($h).noChan,
  ($h).task, ($h).connected, ($h).reconnecting, ($h).scheduled, ($h).shut, ($h).intr, ($h).dead, ($h).chans,
  ($h).tchans, ($h).alive⟩)

theorem Ctl.create {c c' : Conn} {kind : Kind} {size : Nat} (h : Ctl c) (hs : c.create kind size = .ok c') : Ctl c' := by
  rcases create_cases hs with ⟨e, _⟩ | ⟨e, _⟩ | ⟨r, _, ⟨_, e⟩ | ⟨_, _, _, ⟨_, e⟩ | ⟨hc, chan, hsl, hch, e⟩ | ⟨_, _, e⟩⟩⟩
  · cases e; ctl h
  · cases e; ctl h
  · cases e; ctl h
  · cases e; ctl h
  · cases e
    refine ⟨h.off, h.pin, h.conn, h.busyOpen, h.driver, h.noChan, h.task, h.connected, h.reconnecting, h.scheduled, h.shut,
      h.intr, ?_, h.chans, ?_, h.alive⟩
    · intro h0 t ht
      rcases List.mem_append.1 ht with ht | ht
      · exact h.dead h0 t ht
      · simp only [List.mem_singleton] at ht
        subst ht
        exact hch.symm
    · intro t ht
      rcases List.mem_append.1 ht with ht | ht
      · exact h.tchans t ht
      · simp only [List.mem_singleton] at ht
        subst ht
        exact h.chans _ hch
  · cases e

theorem Ctl.complete {c : Conn} {u : Nat} {o : Outcome} (h : Ctl c) : Ctl (c.complete u o) := by
  cases hr : c.reqs.get u with
  | some r =>
    rw [complete_eq hr]
    refine ⟨h.off, h.pin, h.conn, h.busyOpen, h.driver, fun hn => ?_, h.task, h.connected, h.reconnecting, h.scheduled,
      h.shut, h.intr, h.dead, h.chans, h.tchans, h.alive⟩
    obtain ⟨h1, h2, h3, h4⟩ := h.noChan hn
    exact ⟨h1, h2, by simp [h3], h4⟩
  | none =>
    have : c.complete u o = c.tell (.completed u o) := by
      simp [Conn.complete, Conn.change, Conn.remove, Conn.tell, hr]
    rw [this]
    ctl h

theorem Ctl.finish {c c' : Conn} {id : Nat} {o : Outcome} (h : Ctl c) (hs : c.finish id o = .ok c') : Ctl c' := by
  rcases finish_cases hs with ⟨_, e⟩ | ⟨uid, _, ⟨_, e⟩ | ⟨_, _, e⟩⟩
  · cases e; exact h
  · cases e
    have h' := h.complete (u := uid) (o := o)
    refine ⟨h'.off, h'.pin, h'.conn, h'.busyOpen, h'.driver, fun hn => ?_, h'.task, h'.connected, h'.reconnecting,
      h'.scheduled, h'.shut, h'.intr, h'.dead, h'.chans, h'.tchans, h'.alive⟩
    obtain ⟨h1, h2, h3, h4⟩ := h'.noChan hn
    exact ⟨h1, h2, h3, by simp [h4]⟩
  · cases e

theorem Ctl.tell {c : Conn} (h : Ctl c) (t : Trace) : Ctl (c.tell t) := by ctl h

theorem Ctl.tasks {c : Conn} (h : Ctl c) {ts : List (Nat × Nat)} (hs : ∀ t ∈ ts, t ∈ c.tasks) :
    Ctl { c with tasks := ts } :=
  ⟨h.off, h.pin, h.conn, h.busyOpen, h.driver, h.noChan, h.task, h.connected, h.reconnecting, h.scheduled, h.shut,
    h.intr, fun h0 t ht => h.dead h0 t (hs t ht), h.chans, fun t ht => h.tchans t (hs t ht), h.alive⟩

theorem Ctl.reject {c : Conn} (h : Ctl c) {chan : Nat} (hc : c.chan = some chan) : Ctl (c.reject chan) :=
  ⟨h.off, h.pin, h.conn, h.busyOpen, h.driver, fun hn => by simp [Conn.reject, hc] at hn, h.task, h.connected,
    h.reconnecting, h.scheduled, h.shut, h.intr, h.dead, h.chans, h.tchans, h.alive⟩

theorem Ctl.change {c : Conn} (h : Ctl c) (u : Nat) (a b : Bool) : Ctl (c.change u a b) := by
  cases hr : c.reqs.get u with
  | some r => rw [change_eq hr]; ctl h
  | none =>
    have : c.change u a b = c := by simp [Conn.change, hr]
    rw [this]; exact h

theorem Ctl.send {c : Conn} (h : Ctl c) {u chan : Nat} {r : Sending} (hc : c.chan ≠ none) : Ctl (c.send u chan r) := by
  unfold Conn.send
  split
  · exact h
  · next q hq =>
    split
    · exact h.complete
    · simp only
      split
      · exact h.complete
      · exact (h.tell _).complete
    · next timer topics =>
      simp only
      have h1 : Ctl { c.tell (.sent u chan q.initiated) with
          reqs := (c.tell (.sent u chan q.initiated)).reqs.set u { q with
            initiated := true, topics := if q.kind.isSubscribe then topics else q.topics } } := by ctl h
      have h2 := h1.change u true true
      have hc2 : (Conn.change { c.tell (.sent u chan q.initiated) with
          reqs := (c.tell (.sent u chan q.initiated)).reqs.set u { q with
            initiated := true, topics := if q.kind.isSubscribe then topics else q.topics } } u true true).chan ≠ none := by
        rw [change_eq (AMap.get_set_same ..)]
        exact hc
      exact ⟨h2.off, h2.pin, h2.conn, h2.busyOpen, h2.driver, fun hn => absurd hn hc2, h2.task, h2.connected,
        h2.reconnecting, h2.scheduled, h2.shut, h2.intr, h2.dead, h2.chans, h2.tchans, h2.alive⟩

theorem Ctl.cancelled {c : Conn} (h : Ctl c) {u : Nat} : Ctl (c.cancelled u) := by
  unfold Conn.cancelled
  split
  · exact h
  · split
    · have h2 := h.change u true false
      ctl h2
    · exact h.complete

/-- A connection with a channel on which a CONNACK has been received. -/
theorem Ctl.ofConnected {c : Conn} {n : Nat} (hs : c.state = .connected) (hb : c.busy = .idle) (ho : c.opening = false)
    (hc : c.chan = some n) (hsl : c.slot = true) (hr : c.reconnect = .idle) (hp : c.pinned = true) (hcount : c.count ≠ 0)
    (hdead : c.held = 0 → ∀ t ∈ c.tasks, some t.2 = c.chan) (hn : n < c.nextChan)
    (ht : ∀ t ∈ c.tasks, t.2 < c.nextChan) : Ctl c where
  off := by rw [hs]; intro h; cases h
  pin := fun _ _ => hp
  conn := by rw [hb]; intro h; cases h
  busyOpen := fun h => absurd hb h
  driver := fun _ _ => .inr (.inl ⟨ho, by simp [hc], by simp [hr]⟩)
  noChan := by rw [hc]; intro h; cases h
  task := fun _ => hsl
  connected := fun _ => ⟨hsl, by simp [hr], hcount⟩
  reconnecting := by rw [hs]; intro h; cases h
  scheduled := by rw [hr]; intro h; cases h
  shut := by rw [hb]; intro _ _ _ h; cases h
  intr := by rw [hb]; intro h; cases h
  dead := hdead
  chans := by
    intro m hm
    rw [hc] at hm
    cases hm
    exact hn
  tchans := ht
  alive := fun _ => .inr hp

theorem Ctl.connack {c : Conn} (h : Ctl c) {chan : Nat} {acc : Bool} (hc : c.chan = some chan) (hsl : c.slot = true)
    (hb : c.busy = .idle) : Ctl (c.connack chan acc) := by
  unfold Conn.connack
  split
  · ctl h
  next hst =>
  have hst1 : c.state ≠ .disconnecting := fun e => hst (.inl e)
  have hst2 : c.state ≠ .disconnected := fun e => hst (.inr e)
  have hn : ¬ c.chan = none := by simp [hc]
  have hns : c.reconnect ≠ .scheduled := by
    rcases h.driver hst2 hb with ⟨_, _, e⟩ | ⟨_, _, e⟩ | ⟨_, e, _⟩
    · exact e
    · exact e
    · exact absurd e hn
  have hop : c.opening = false := by
    rcases h.driver hst2 hb with ⟨_, e, _⟩ | ⟨e, _, _⟩ | ⟨e, _, _⟩
    · exact absurd e hn
    · exact e
    · exact e
  have hpin := h.pin hst2 (by rw [hb]; rfl)
  have hdead : c.held = 0 → ∀ t ∈ c.tasks ++ c.pending.map (·, chan), some t.2 = c.chan := by
    intro h0 t ht
    rcases List.mem_append.1 ht with ht | ht
    · exact h.dead h0 t ht
    · obtain ⟨u, _, rfl⟩ := List.mem_map.1 ht
      exact hc.symm
  have htch : ∀ t ∈ c.tasks ++ c.pending.map (·, chan), t.2 < c.nextChan := by
    intro t ht
    rcases List.mem_append.1 ht with ht | ht
    · exact h.tchans t ht
    · obtain ⟨u, _, rfl⟩ := List.mem_map.1 ht
      exact h.chans _ hc
  split
  · simp only
    split
    · next hr =>
      have hi : c.reconnect = .idle := by
        have := (h.reconnecting hr.1).1
        cases he : c.reconnect <;> simp_all
      exact Ctl.ofConnected rfl hb hop hc hsl hi hpin (Nat.succ_ne_zero _) hdead (h.chans _ hc) htch
    · next hr =>
      have hi : (if c.reconnect = .absent then Reconnect.idle else c.reconnect) = .idle := by
        cases he : c.reconnect <;> simp_all
      exact Ctl.ofConnected rfl hb hop hc hsl hi hpin (Nat.succ_ne_zero _) hdead (h.chans _ hc) htch
  · refine ⟨h.off, h.pin, h.conn, h.busyOpen, h.driver, fun hn' => absurd hn' hn, h.task, fun e => ?_, fun e => ?_,
      h.scheduled, h.shut, h.intr, h.dead, h.chans, h.tchans, h.alive⟩
    · exact ⟨(h.connected e).1, (h.connected e).2.1, Nat.succ_ne_zero _⟩
    · exact ⟨(h.reconnecting e).1, Nat.succ_ne_zero _⟩

theorem Ctl.suback {c c' : Conn} (h : Ctl c) {chan id codes : Nat} (hc : c.chan = some chan)
    (hs : c.suback chan id codes = .ok c') : Ctl c' := by
  unfold Conn.suback at hs
  split at hs
  · cases hs; exact h
  · split at hs
    · cases hs
    · split at hs
      · cases hs
      · split at hs
        · cases hs; exact h.reject hc
        · exact h.finish hs

theorem Ctl.receive {c c' : Conn} (h : Ctl c) {chan : Nat} {p : Packet} (hc : c.chan = some chan) (hsl : c.slot = true)
    (hb : c.busy = .idle) (hs : c.receive chan p = .ok c') : Ctl c' := by
  unfold Conn.receive at hs
  split at hs
  · cases hs; exact h.tell _
  · cases hs; exact h.connack hc hsl hb
  · split at hs
    · cases hs; exact h.reject hc
    · split at hs
      · cases hs
        split
        · exact (h.tell _).tell _
        · exact h.tell _
      · exact (h.tell _).finish hs
      · exact (h.tell _).finish hs
      · exact (h.tell _).finish hs
      · exact (h.tell _).suback hc hs
      · cases hs; exact (h.tell _).tell _
      · cases hs; exact (h.tell _).tell _
      · cases hs; exact h.reject hc

/-- `release` either destroys the connection or does nothing. -/
theorem release_cases {c c' : Conn} (h : c.release = .ok c') :
    (c' = c ∧ ¬ (c.held = 0 ∧ c.pinned = false)) ∨
    (c' = c.destroyFinal ∧ c.held = 0 ∧ c.pinned = false ∧ c.state = .disconnected) := by
  unfold Conn.release at h
  split at h
  · next e =>
    split at h
    · next e2 => cases h; exact .inr ⟨rfl, e.1, e.2, e2⟩
    · cases h
  · next e => cases h; exact .inl ⟨rfl, e⟩

theorem Ctl.release {c c' : Conn} (h : Ctl { c with destroyed := true }) (hs : c.release = .ok c') : Ctl c' := by
  rcases release_cases hs with ⟨rfl, hn⟩ | ⟨rfl, _⟩
  · refine ⟨h.off, h.pin, h.conn, h.busyOpen, h.driver, h.noChan, h.task, h.connected, h.reconnecting, h.scheduled, h.shut,
      h.intr, h.dead, h.chans, h.tchans, fun _ => ?_⟩
    cases hp : c'.pinned with
    | true => exact .inr rfl
    | false => exact .inl fun e => hn ⟨e, hp⟩
  · ctl h

theorem Ctl.remove {c : Conn} (h : Ctl c) (u : Nat) : Ctl (c.remove u) := by
  unfold Conn.remove
  split
  · exact h
  · refine ⟨h.off, h.pin, h.conn, h.busyOpen, h.driver, fun hn => ?_, h.task, h.connected, h.reconnecting, h.scheduled,
      h.shut, h.intr, h.dead, h.chans, h.tchans, h.alive⟩
    obtain ⟨h1, h2, h3, h4⟩ := h.noChan hn
    exact ⟨h1, h2, by simp [h3], h4⟩

/-- What the removal of requests leaves as it is. -/
theorem removeAll_eq (l : List Nat) (c : Conn) : ∃ reqs table timers,
    l.foldl Conn.remove c = { c with reqs := reqs, table := table, timers := timers } ∧
    (∀ u ∈ timers, u ∈ c.timers) := by
  induction l generalizing c with
  | nil => exact ⟨c.reqs, c.table, c.timers, rfl, fun _ h => h⟩
  | cons u l ih =>
    obtain ⟨r, t, m, e, hm⟩ := ih (c.remove u)
    rw [List.foldl_cons, e]
    unfold Conn.remove at hm ⊢
    split
    · next hn => rw [hn] at hm; exact ⟨r, t, m, rfl, hm⟩
    · next q hn =>
      rw [hn] at hm
      exact ⟨r, t, m, rfl, fun v hv => (List.mem_filter.1 (hm v hv)).1⟩

theorem Ctl.finishDisconnect {c c' : Conn} (h : Ctl c) {prev : State} (ho : c.opening = false) (hc : c.chan = none)
    (hr : c.reconnect ≠ .scheduled) (hs : c.finishDisconnect prev = .ok c') : Ctl c' := by
  refine Ctl.release ?_ hs
  exact {
    off := fun _ => ⟨rfl, ho, hc, hr, rfl⟩
    pin := fun h => absurd rfl h
    conn := fun h => by cases h
    busyOpen := fun h => absurd rfl h
    driver := fun h => absurd rfl h
    noChan := h.noChan
    task := h.task
    connected := fun h => by cases h
    reconnecting := fun h => by cases h
    scheduled := fun h => absurd h hr
    shut := fun _ _ _ h => by cases h
    intr := fun h => by cases h
    dead := h.dead
    chans := h.chans
    tchans := h.tchans
    alive := fun e => by cases e }

theorem Ctl.schedule {c c' : Conn} (h : Ctl c) (hb : c.busy ≠ .idle) (hst : c.state = .reconnecting ∨ c.state = .disconnecting)
    (hs : { c with busy := .idle }.schedule = .ok c') : Ctl c' := by
  obtain ⟨ho, hc, hr⟩ := h.busyOpen hb
  unfold Conn.schedule at hs
  split at hs
  · cases hs
  next ha =>
  cases hs
  have hin : c.busy.inConnect = false := by
    cases hi : c.busy.inConnect with
    | false => rfl
    | true =>
      have := (h.conn hi).1
      rw [this] at hst
      rcases hst with h | h <;> cases h
  have hnd : c.state ≠ .disconnected := by rcases hst with h | h <;> rw [h] <;> intro h <;> cases h
  exact {
    off := fun h => absurd h hnd
    pin := fun _ _ => h.pin hnd hin
    conn := fun h => by cases h
    busyOpen := fun h => absurd rfl h
    driver := fun _ _ => .inr (.inr ⟨ho, hc, rfl⟩)
    noChan := h.noChan
    task := h.task
    connected := fun e => ⟨(h.connected e).1, by simp, (h.connected e).2.2⟩
    reconnecting := fun e => ⟨by simp, (h.reconnecting e).2⟩
    scheduled := fun _ => hst
    shut := fun _ _ _ h => by cases h
    intr := fun h => by cases h
    dead := h.dead
    chans := h.chans
    tchans := h.tchans
    alive := h.alive }

theorem Ctl.removeAll {c : Conn} (h : Ctl c) (l : List Nat) : Ctl (l.foldl Conn.remove c) := by
  induction l generalizing c with
  | nil => exact h
  | cons u l ih => exact ih (h.remove u)

theorem Ctl.advance {c c' : Conn} (h : Ctl c) (hs : c.advance = .ok c') : Ctl c' := by
  unfold Conn.advance at hs
  split at hs
  · next all uid todo next hb =>
    cases hs
    obtain ⟨ho, hc, hr⟩ := h.busyOpen (by rw [hb]; intro h; cases h)
    have hin : (Busy.cancelling all todo next).inConnect = c.busy.inConnect := by rw [hb]; cases next <;> rfl
    exact {
      off := fun e => by have := (h.off e).1; rw [hb] at this; cases this
      pin := fun e e2 => h.pin e (hin ▸ e2)
      conn := fun e => h.conn (hin ▸ e)
      busyOpen := fun _ => ⟨ho, hc, hr⟩
      driver := fun _ e => by cases e
      noChan := h.noChan
      task := h.task
      connected := h.connected
      reconnecting := h.reconnecting
      scheduled := h.scheduled
      shut := fun a t p e => by
        cases e
        exact h.shut _ _ _ hb
      intr := fun e => by cases e
      dead := h.dead
      chans := h.chans
      tchans := h.tchans
      alive := h.alive }
  · next all next hb =>
    have h' := h.removeAll all
    obtain ⟨rq, tb, tm, e, _⟩ := removeAll_eq all c
    have hbn : c.busy ≠ .idle := by rw [hb]; intro h; cases h
    obtain ⟨ho, hc, hr⟩ := h.busyOpen hbn
    simp only at hs
    rw [e] at hs h'
    split at hs
    · cases hs
      have hin := h.conn (by rw [hb]; rfl)
      exact {
        off := fun e => by have := (h.off e).1; rw [hb] at this; cases this
        pin := fun _ e => by cases e
        conn := fun _ => hin
        busyOpen := fun _ => ⟨ho, hc, hr⟩
        driver := fun _ e => by cases e
        noChan := h'.noChan
        task := h.task
        connected := h.connected
        reconnecting := h.reconnecting
        scheduled := h.scheduled
        shut := fun _ _ _ e => by cases e
        intr := fun e => by cases e
        dead := h.dead
        chans := h.chans
        tchans := h.tchans
        alive := h.alive }
    · have hst : c.state = .reconnecting ∨ c.state = .disconnecting := by
        rcases h.shut _ _ _ hb with ⟨e, _⟩ | ⟨e, _⟩ | ⟨_, e, _⟩
        · cases e
        · cases e
        · exact e
      exact h'.schedule hbn hst hs
    · cases hs
      obtain ⟨hst, hra⟩ : (c.state = .reconnecting ∨ c.state = .disconnecting) ∧ c.reconnect ≠ .absent := by
        rcases h.shut _ _ _ hb with ⟨e, _⟩ | ⟨e, _⟩ | ⟨_, e⟩
        · cases e
        · cases e
        · exact e
      exact {
        off := fun e => by have := (h.off e).1; rw [hb] at this; cases this
        pin := fun e _ => h.pin e (by rw [hb]; rfl)
        conn := fun e => by cases e
        busyOpen := fun _ => ⟨ho, hc, hr⟩
        driver := fun _ e => by cases e
        noChan := h'.noChan
        task := h.task
        connected := h.connected
        reconnecting := h.reconnecting
        scheduled := h.scheduled
        shut := fun _ _ _ e => by cases e
        intr := fun _ => ⟨hst, hra⟩
        dead := h.dead
        chans := h.chans
        tchans := h.tchans
        alive := h.alive }
    · rcases h.shut _ _ _ hb with ⟨e, _⟩ | ⟨e, _⟩ | ⟨e | e, _⟩ <;> cases e
    · exact h'.finishDisconnect ho hc hr hs
  · next hb =>
    have hbn : c.busy ≠ .idle := by rw [hb]; intro h; cases h
    obtain ⟨ho, hc, hr⟩ := h.busyOpen hbn
    split at hs
    · exact h.finishDisconnect ho hc hr hs
    · exact h.schedule hbn (h.intr hb).1 hs
  · cases hs; exact h

end Mqtt.Client311
