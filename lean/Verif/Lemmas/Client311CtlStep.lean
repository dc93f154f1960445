import Verif.Lemmas.Client311Ctl

/-! Preservation of the control invariant of the 3.1.1 connection, continued. -/
namespace Mqtt.Client311

theorem Ctl.connect {c : Conn} (h : Ctl c) (hh : c.held ≠ 0 ∨ c.pinned = true) (clean : Bool) : Ctl (c.connect clean) := by
  unfold Conn.connect
  split
  · exact h.tell _
  next hs =>
  have hs : c.state = .disconnected := by simpa using hs
  obtain ⟨hb, ho, hc, hr, hp⟩ := h.off hs
  have hheld : c.held ≠ 0 := by
    rcases hh with h | h
    · exact h
    · rw [hp] at h; cases h
  exact {
    off := fun e => by cases e
    pin := fun _ e => by cases e
    conn := fun _ => ⟨rfl, hp, hheld⟩
    busyOpen := fun _ => ⟨ho, hc, hr⟩
    driver := fun _ e => by cases e
    noChan := h.noChan
    task := h.task
    connected := fun e => by cases e
    reconnecting := fun e => by cases e
    scheduled := fun e => absurd e hr
    shut := fun _ _ _ e => by cases e
    intr := fun e => by cases e
    dead := h.dead
    chans := h.chans
    tchans := h.tchans
    alive := h.alive }

theorem Ctl.launch {c : Conn} (h : Ctl c) (hb : c.busy = .launching) (ok : Bool) : Ctl (c.launch ok) := by
  obtain ⟨hst, hp, hh⟩ := h.conn (by rw [hb]; rfl)
  obtain ⟨ho, hc, hr⟩ := h.busyOpen (by rw [hb]; intro h; cases h)
  unfold Conn.launch
  split
  · exact {
      off := fun e => by have := hst.symm.trans e; cases this
      pin := fun _ _ => rfl
      conn := fun e => by cases e
      busyOpen := fun e => absurd rfl e
      driver := fun _ _ => .inl ⟨rfl, hc, hr⟩
      noChan := h.noChan
      task := h.task
      connected := h.connected
      reconnecting := h.reconnecting
      scheduled := h.scheduled
      shut := fun _ _ _ e => by cases e
      intr := fun e => by cases e
      dead := h.dead
      chans := h.chans
      tchans := h.tchans
      alive := fun _ => .inr rfl }
  · exact {
      off := fun _ => ⟨rfl, ho, hc, hr, hp⟩
      pin := fun e => absurd rfl e
      conn := fun e => by cases e
      busyOpen := fun e => absurd rfl e
      driver := fun e => absurd rfl e
      noChan := h.noChan
      task := h.task
      connected := fun e => by cases e
      reconnecting := fun e => by cases e
      scheduled := fun e => absurd e hr
      shut := fun _ _ _ e => by cases e
      intr := fun e => by cases e
      dead := h.dead
      chans := h.chans
      tchans := h.tchans
      alive := h.alive }

theorem Ctl.disconnect {c : Conn} (h : Ctl c) : Ctl c.disconnect := by
  unfold Conn.disconnect
  split
  · next hs =>
    have hnd : c.state ≠ .disconnected := by rcases hs with h | h <;> rw [h] <;> intro h <;> cases h
    have hra : c.reconnect ≠ .absent := by
      rcases hs with e | e
      · exact (h.connected e).2.1
      · exact (h.reconnecting e).1
    exact {
      off := fun e => by cases e
      pin := fun _ e => h.pin hnd e
      conn := fun e => by
        have := (h.conn e).1
        rw [this] at hs
        rcases hs with h | h <;> cases h
      busyOpen := h.busyOpen
      driver := fun _ e => h.driver hnd e
      noChan := h.noChan
      task := fun e => by
        cases hsl : c.slot with
        | true => rfl
        | false =>
          simp only [hsl, Bool.false_or] at e
          have := h.task e
          rw [hsl] at this; cases this
      connected := fun e => by cases e
      reconnecting := fun e => by cases e
      scheduled := fun _ => .inr rfl
      shut := fun a t p e => by
        rcases h.shut a t p e with ⟨_, e2⟩ | ⟨e2, _⟩ | ⟨e2, _⟩
        · rw [e2] at hs; rcases hs with h | h <;> cases h
        · exact .inr (.inl ⟨e2, rfl⟩)
        · exact .inr (.inr ⟨e2, .inr rfl, hra⟩)
      intr := fun e => ⟨.inr rfl, (h.intr e).2⟩
      dead := h.dead
      chans := h.chans
      tchans := h.tchans
      alive := h.alive }
  · exact h

theorem Ctl.runDisconnectTask {c : Conn} (h : Ctl c) (ht : c.disconnectTask = true) : Ctl c.runDisconnectTask := by
  have hsl := h.task ht
  have hc : c.chan ≠ none := fun e => by have := (h.noChan e).1; rw [hsl] at this; cases this
  have hb : c.busy = .idle := by
    by_cases hb : c.busy = .idle
    · exact hb
    · exact absurd (h.busyOpen hb).2.1 hc
  have hnd : c.state ≠ .disconnected := fun e => hc (h.off e).2.2.1
  have hdr : c.opening = false ∧ c.reconnect ≠ .scheduled := by
    rcases h.driver hnd hb with ⟨_, e, _⟩ | ⟨a, _, b⟩ | ⟨_, e, _⟩
    · exact absurd e hc
    · exact ⟨a, b⟩
    · exact absurd e hc
  have hns : (if c.state = .disconnecting then Reconnect.absent else c.reconnect) ≠ .scheduled := by
    split
    · intro h; cases h
    · exact hdr.2
  unfold Conn.runDisconnectTask
  exact {
    off := fun e => absurd e hnd
    pin := h.pin
    conn := h.conn
    busyOpen := fun e => absurd hb e
    driver := fun _ _ => .inr (.inl ⟨hdr.1, hc, hns⟩)
    noChan := fun e => absurd e hc
    task := fun e => by cases e
    connected := fun e => ⟨hsl, by
      have : c.state = .connected := e
      rw [this]; exact (h.connected e).2.1, (h.connected e).2.2⟩
    reconnecting := fun e => ⟨by
      have : c.state = .reconnecting := e
      rw [this]; exact (h.reconnecting e).1, (h.reconnecting e).2⟩
    scheduled := fun e => absurd e hns
    shut := fun a t p e => by
      have : c.busy = _ := e
      rw [hb] at this; cases this
    intr := fun e => by
      have : c.busy = _ := e
      rw [hb] at this; cases this
    dead := h.dead
    chans := h.chans
    tchans := h.tchans
    alive := h.alive }

theorem Ctl.shutdown {c : Conn} (h : Ctl c) (hb : c.busy = .idle) (hop : c.opening = true ∨ c.chan ≠ none)
    (hdt : c.disconnectTask = false) (ht : c.held = 0 → c.tasks = []) : Ctl c.shutdown := by
  have hnd : c.state ≠ .disconnected := fun e => by
    have := h.off e
    rcases hop with h | h
    · rw [this.2.1] at h; cases h
    · exact h this.2.2.1
  have hr : c.reconnect ≠ .scheduled := by
    rcases h.driver hnd hb with ⟨_, _, e⟩ | ⟨_, _, e⟩ | ⟨e1, e2, _⟩
    · exact e
    · exact e
    · rcases hop with h | h
      · rw [e1] at h; cases h
      · exact absurd e2 h
  have hpin := h.pin hnd (by rw [hb]; rfl)
  unfold Conn.shutdown
  exact {
    off := fun e => by
      simp only at e
      split at e
      · cases e
      · exact absurd e hnd
    pin := fun _ _ => hpin
    conn := fun e => by cases e
    busyOpen := fun _ => ⟨rfl, rfl, hr⟩
    driver := fun _ e => by cases e
    noChan := fun _ => ⟨rfl, rfl, rfl, rfl⟩
    task := fun e => by rw [hdt] at e; cases e
    connected := fun e => by
      simp only at e
      split at e
      · cases e
      · next hn => exact absurd e hn
    reconnecting := fun e => by
      simp only at e
      split at e
      · next hn => exact (h.connected hn).2
      · exact h.reconnecting e
    scheduled := fun e => absurd e hr
    shut := fun a t p e => by
      simp only [Busy.cancelling.injEq, Next.shutdown.injEq] at e
      rw [← e.2.2]
      cases hst : c.state with
      | connecting => exact .inl ⟨rfl, rfl⟩
      | disconnecting => exact .inr (.inl ⟨rfl, rfl⟩)
      | connected => exact .inr (.inr ⟨.inl rfl, .inl rfl, (h.connected hst).2.1⟩)
      | reconnecting => exact .inr (.inr ⟨.inr rfl, .inl rfl, (h.reconnecting hst).1⟩)
      | disconnected => exact absurd hst hnd
    intr := fun e => by cases e
    dead := fun e t htm => by rw [ht e] at htm; cases htm
    chans := fun n e => by cases e
    tchans := h.tchans
    alive := h.alive }

theorem Ctl.setup {c : Conn} (h : Ctl c) (hb : c.busy = .idle) (hop : c.opening = true) (r : Setup) : Ctl (c.setup r) := by
  have hnd : c.state ≠ .disconnected := fun e => by
    have := h.off e
    rw [this.2.1] at hop; cases hop
  obtain ⟨hc, hr⟩ : c.chan = none ∧ c.reconnect ≠ .scheduled := by
    rcases h.driver hnd hb with ⟨_, e⟩ | ⟨e, _⟩ | ⟨e, _⟩
    · exact e
    · rw [e] at hop; cases hop
    · rw [e] at hop; cases hop
  obtain ⟨hsl, hcl, htm, hog⟩ := h.noChan hc
  have hdt : c.disconnectTask = false := by
    cases hd : c.disconnectTask with
    | false => rfl
    | true => have := h.task hd; rw [hsl] at this; cases this
  have hdead : c.held = 0 → c.tasks = [] := by
    intro h0
    rw [List.eq_nil_iff_forall_not_mem]
    intro t ht
    have := h.dead h0 t ht
    rw [hc] at this; cases this
  have hst : c.state ≠ .connected := fun e => by have := (h.connected e).1; rw [hsl] at this; cases this
  have hpin := h.pin hnd (by rw [hb]; rfl)
  unfold Conn.setup
  have key : ∀ (s cl : Bool) (l : List Trace), Ctl { c with
      opening := false, chan := some c.nextChan, nextChan := c.nextChan + 1, slot := s, closing := cl, log := l } := by
    intro s cl l
    exact {
      off := fun e => absurd e hnd
      pin := fun _ _ => hpin
      conn := h.conn
      busyOpen := fun e => absurd hb e
      driver := fun _ _ => .inr (.inl ⟨rfl, by simp, hr⟩)
      noChan := fun e => by cases e
      task := fun e => by rw [hdt] at e; cases e
      connected := fun e => absurd e hst
      reconnecting := h.reconnecting
      scheduled := fun e => absurd e hr
      shut := h.shut
      intr := h.intr
      dead := fun h0 t ht => by rw [hdead h0] at ht; cases ht
      chans := fun n e => by cases e; exact Nat.lt_succ_self _
      tchans := fun t ht => Nat.lt_succ_of_lt (h.tchans t ht)
      alive := h.alive }
  split
  · exact h.shutdown hb (.inl hop) hdt hdead
  · exact key c.slot true c.log
  · simp only
    split
    · have := key c.slot true c.log
      exact this
    · split
      · exact key true c.closing _
      · exact key true true _

theorem Ctl.attempt {c c' : Conn} (h : Ctl c) (hb : c.busy = .idle) (hsc : c.reconnect = .scheduled) {ok : Bool}
    (hs : c.attempt ok = .ok c') : Ctl c' := by
  have hst := h.scheduled hsc
  have hnd : c.state ≠ .disconnected := by rcases hst with h | h <;> rw [h] <;> intro h <;> cases h
  obtain ⟨ho, hc⟩ : c.opening = false ∧ c.chan = none := by
    rcases h.driver hnd hb with ⟨_, _, e⟩ | ⟨_, _, e⟩ | ⟨e1, e2, _⟩
    · exact absurd hsc e
    · exact absurd hsc e
    · exact ⟨e1, e2⟩
  obtain ⟨hsl, hcl, htm, hog⟩ := h.noChan hc
  have hpin := h.pin hnd (by rw [hb]; rfl)
  unfold Conn.attempt at hs
  split at hs
  · simp only [hsl, Bool.false_eq_true, if_false] at hs
    refine Ctl.release ?_ hs
    exact {
      off := fun _ => ⟨hb, ho, hc, by simp, rfl⟩
      pin := fun e => absurd rfl e
      conn := fun e => by rw [hb] at e; cases e
      busyOpen := fun e => absurd hb e
      driver := fun e => absurd rfl e
      noChan := fun _ => ⟨rfl, hcl, htm, hog⟩
      task := fun e => by have := h.task e; rw [hsl] at this; cases this
      connected := fun e => by cases e
      reconnecting := fun e => by cases e
      scheduled := fun e => by cases e
      shut := fun a t p e => by rw [hb] at e; cases e
      intr := fun e => by rw [hb] at e; cases e
      dead := h.dead
      chans := h.chans
      tchans := h.tchans
      alive := fun e => by cases e }
  · next hs' =>
    split at hs
    · cases hs
      exact {
        off := fun e => absurd e hnd
        pin := fun _ _ => hpin
        conn := h.conn
        busyOpen := fun e => absurd hb e
        driver := fun _ _ => .inl ⟨rfl, hc, by simp⟩
        noChan := h.noChan
        task := h.task
        connected := fun e => ⟨(h.connected e).1, by simp, (h.connected e).2.2⟩
        reconnecting := fun e => ⟨by simp, (h.reconnecting e).2⟩
        scheduled := fun e => by cases e
        shut := fun a t p e => by have : c.busy = _ := e; rw [hb] at this; cases this
        intr := fun e => by have : c.busy = _ := e; rw [hb] at this; cases this
        dead := h.dead
        chans := h.chans
        tchans := h.tchans
        alive := h.alive }
    · cases hs
      have : { c with reconnect := .scheduled } = c := by rw [← hsc]
      rw [this]; exact h

theorem mem_eraseIdx {α : Type} {l : List α} {k : Nat} {a : α} (h : a ∈ l.eraseIdx k) : a ∈ l :=
  List.eraseIdx_subset h

theorem Ctl.step {c c' : Conn} {e : Event} (h : Ctl c) (hd : c.destroyed = false) (he : Enabled c e = true)
    (hs : step c e = .ok c') : Ctl c' := by
  cases e with
  | create kind size => exact h.create hs
  | connect clean => cases hs; exact h.connect (h.alive hd) clean
  | launch ok => cases hs; exact h.launch (by simpa [Enabled] using he) ok
  | advance => exact h.advance hs
  | disconnect => cases hs; exact h.disconnect
  | acquire =>
    cases hs
    exact ⟨h.off, h.pin, fun e => ⟨(h.conn e).1, (h.conn e).2.1, Nat.succ_ne_zero _⟩, h.busyOpen, h.driver, h.noChan,
      h.task, h.connected, h.reconnecting, h.scheduled, h.shut, h.intr, fun e => absurd e (Nat.succ_ne_zero _), h.chans,
      h.tchans, fun _ => .inl (Nat.succ_ne_zero _)⟩
  | release =>
    simp only [Enabled, decide_eq_true_eq] at he
    refine Ctl.release ?_ hs
    refine ⟨h.off, h.pin, fun e => ⟨(h.conn e).1, (h.conn e).2.1, ?_⟩, h.busyOpen, h.driver, h.noChan,
      h.task, h.connected, h.reconnecting, h.scheduled, h.shut, h.intr, fun e => ?_, h.chans, h.tchans, fun e => by cases e⟩
    · intro h0
      have h0 : c.held - 1 = 0 := h0
      have := (he.2 (by have := he.1; omega)).1
      rw [show c.busy.inConnect = true from e] at this; cases this
    · have e : c.held - 1 = 0 := e
      exact (he.2 (by have := he.1; omega)).2
  | setup r =>
    simp only [Enabled, decide_eq_true_eq] at he
    cases hs
    exact h.setup he.1 he.2 r
  | packet p =>
    simp only [Enabled, decide_eq_true_eq] at he
    simp only [Client311.step] at hs
    split at hs
    · cases hs
    · next chan hc => exact h.receive hc he.2 he.1 hs
  | ping => exact h.create hs
  | run k result =>
    simp only [Enabled, Bool.and_eq_true, decide_eq_true_eq] at he
    simp only [Client311.step] at hs
    split at hs
    · cases hs; exact h
    · next uid chan hk =>
      cases hs
      refine Ctl.send (h.tasks fun t ht => mem_eraseIdx ht) ?_
      have := he.2
      rw [hk] at this
      simp only [Bool.and_eq_true, decide_eq_true_eq] at this
      show c.chan ≠ none
      rw [← this.1]; simp
  | cancel k =>
    simp only [Client311.step] at hs
    split at hs
    · cases hs; exact h
    · cases hs; exact (h.tasks fun t ht => mem_eraseIdx ht).cancelled
  | timeout uid =>
    simp only [Client311.step] at hs
    split at hs
    · cases hs
    · exact h.finish hs
  | attempt ok =>
    simp only [Enabled, decide_eq_true_eq] at he
    exact h.attempt he.1 he.2 hs
  | disconnectTask => cases hs; exact h.runDisconnectTask he
  | close =>
    simp only [Enabled, decide_eq_true_eq] at he
    cases hs
    exact ⟨h.off, h.pin, h.conn, h.busyOpen, h.driver, fun e => absurd e he, h.task, h.connected, h.reconnecting,
      h.scheduled, h.shut, h.intr, h.dead, h.chans, h.tchans, h.alive⟩
  | shutdown =>
    simp only [Enabled, decide_eq_true_eq] at he
    cases hs
    exact h.shutdown he.1 (.inr he.2.1) he.2.2.2.1 he.2.2.2.2

end Mqtt.Client311
