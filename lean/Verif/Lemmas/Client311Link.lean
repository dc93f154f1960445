import Verif.Lemmas.Client311Spec

/-! Connects and CONNACKs of the 3.1.1 connection. -/
namespace Mqtt.Client311

/-- A connect is accepted or answered, or a callback tells of the connection. -/
def isLink : Trace → Bool
  | .connecting => true
  | .connectionComplete _ => true
  | .resumed => true
  | .interrupted => true
  | .disconnected => true
  | _ => false

/-- An event that neither changes the state nor accepts or answers a connect nor tells of the connection. -/
structure Mild (c c' : Conn) : Prop where
  state : c'.state = c.state
  busy : c'.busy = c.busy
  log : ∃ l, c'.log = c.log ++ l ∧ ∀ t ∈ l, isLink t = false

theorem Mild.same {c c' : Conn} (h1 : c'.state = c.state) (h2 : c'.busy = c.busy) (h : c'.log = c.log) : Mild c c' :=
  ⟨h1, h2, [], by simp [h], by simp⟩

theorem Mild.one {c c' : Conn} {t : Trace} (h1 : c'.state = c.state) (h2 : c'.busy = c.busy)
    (h : c'.log = c.log ++ [t]) (ht : isLink t = false) : Mild c c' := ⟨h1, h2, [t], h, by simpa using ht⟩

theorem Mild.trans {a b c : Conn} (h1 : Mild a b) (h2 : Mild b c) : Mild a c := by
  obtain ⟨s, u, l, e, hl⟩ := h1
  obtain ⟨s2, u2, m, e2, hm⟩ := h2
  refine ⟨s2.trans s, u2.trans u, l ++ m, by rw [e2, e, List.append_assoc], ?_⟩
  intro t ht
  rcases List.mem_append.1 ht with h | h
  · exact hl t h
  · exact hm t h

theorem Mild.after {a b c : Conn} (h2 : Mild b c) (h1 : Mild a b) : Mild a c := h1.trans h2

theorem change_mild {c : Conn} {u : Nat} {a b : Bool} : Mild c (c.change u a b) := by
  cases hr : c.reqs.get u with
  | some r => rw [change_eq hr]; exact Mild.same rfl rfl rfl
  | none => simp only [Conn.change, hr]; exact Mild.same rfl rfl rfl

theorem complete_mild {c : Conn} {u : Nat} {o : Outcome} : Mild c (c.complete u o) := by
  refine Mild.one ?_ ?_ complete_log rfl
  · cases hr : c.reqs.get u with
    | some r => rw [complete_eq hr]
    | none => simp [Conn.complete, Conn.change, Conn.remove, Conn.tell, hr]
  · cases hr : c.reqs.get u with
    | some r => rw [complete_eq hr]
    | none => simp [Conn.complete, Conn.change, Conn.remove, Conn.tell, hr]

theorem create_mild {c c' : Conn} {kind : Kind} {size : Nat} (h : c.create kind size = .ok c') : Mild c c' := by
  rcases create_cases h with ⟨e, _⟩ | ⟨e, _⟩ | ⟨r, _, ⟨_, e⟩ | ⟨_, _, _, ⟨_, e⟩ | ⟨_, _, _, _, e⟩ | ⟨_, _, e⟩⟩⟩ <;>
    cases e <;> exact Mild.one rfl rfl rfl rfl

theorem finish_mild {c c' : Conn} {id : Nat} {o : Outcome} (h : c.finish id o = .ok c') : Mild c c' := by
  rcases finish_cases h with ⟨_, e⟩ | ⟨u, _, ⟨_, e⟩ | ⟨_, _, e⟩⟩
  · cases e; exact Mild.same rfl rfl rfl
  · cases e
    exact Mild.trans complete_mild (Mild.same rfl rfl rfl)
  · cases e

theorem suback_mild {c c' : Conn} {chan id codes : Nat} (h : c.suback chan id codes = .ok c') : Mild c c' := by
  unfold Conn.suback at h
  split at h
  · cases h; exact Mild.same rfl rfl rfl
  · split at h
    · cases h
    · split at h
      · cases h
      · split at h
        · cases h; exact Mild.one rfl rfl rfl rfl
        · exact finish_mild h

theorem receive_mild {c c' : Conn} {chan : Nat} {p : Packet} (h : c.receive chan p = .ok c')
    (hp : ∀ a, p ≠ .connack a) : Mild c c' := by
  have t1 : ∀ t, isLink t = false → Mild c (c.tell t) := fun t ht => Mild.one rfl rfl rfl ht
  unfold Conn.receive at h
  split at h
  · cases h; exact t1 _ rfl
  · exact absurd rfl (hp _)
  · split at h
    · cases h; exact Mild.one rfl rfl rfl rfl
    · split at h
      · cases h
        split
        · exact Mild.trans (b := c.tell _) (t1 (.processed chan _) rfl) (Mild.one rfl rfl rfl rfl)
        · exact t1 _ rfl
      · exact (finish_mild h).after (t1 _ rfl)
      · exact (finish_mild h).after (t1 _ rfl)
      · exact (finish_mild h).after (t1 _ rfl)
      · exact (suback_mild h).after (t1 _ rfl)
      · cases h; exact (t1 _ rfl).trans (Mild.one rfl rfl rfl rfl)
      · cases h; exact (t1 _ rfl).trans (Mild.one rfl rfl rfl rfl)
      · cases h; exact Mild.one rfl rfl rfl rfl

theorem release_mild {c c' : Conn} (h : c.release = .ok c') : Mild c c' := by
  rcases release_cases h with ⟨rfl, _⟩ | ⟨rfl, _⟩
  · exact Mild.same rfl rfl rfl
  · exact ⟨rfl, rfl, c.pending.map (.completed · .destroyed) ++ [.destroyed], by simp [Conn.destroyFinal], by
      intro t ht
      simp only [List.mem_append, List.mem_map, List.mem_singleton] at ht
      rcases ht with ⟨_, _, e⟩ | e <;> cases e <;> rfl⟩

/-- Events other than connects, disconnects, CONNACKs and callbacks of the bootstrap. -/
def Event.isMild : Event → Bool
  | .connect _ => false
  | .launch _ => false
  | .advance => false
  | .disconnect => false
  | .setup _ => false
  | .packet (.connack _) => false
  | .attempt _ => false
  | .shutdown => false
  | _ => true

theorem step_mild {c c' : Conn} {e : Event} (hs : step c e = .ok c') (he : e.isMild = true) : Mild c c' := by
  cases e with
  | create kind size => exact create_mild hs
  | ping => exact create_mild hs
  | acquire => cases hs; exact Mild.same rfl rfl rfl
  | release => exact (release_mild hs).after (Mild.same rfl rfl rfl)
  | packet p =>
    simp only [step] at hs
    split at hs
    · cases hs
    · exact receive_mild hs fun a e => by subst e; cases he
  | run k result =>
    simp only [step] at hs
    split at hs
    · cases hs; exact Mild.same rfl rfl rfl
    · cases hs
      unfold Conn.send
      split
      · exact Mild.same rfl rfl rfl
      · next uid chan _ _ r _ =>
        split
        · exact complete_mild.after (Mild.same rfl rfl rfl)
        · simp only
          split
          · exact complete_mild.after (Mild.same rfl rfl rfl)
          · exact complete_mild.after (Mild.one (t := .sent uid chan r.initiated) rfl rfl rfl rfl)
        · simp only
          refine Mild.trans ?_ (Mild.trans change_mild (Mild.same rfl rfl rfl))
          exact Mild.one (t := .sent uid chan r.initiated) rfl rfl rfl rfl
  | cancel k =>
    simp only [step] at hs
    split at hs
    · cases hs; exact Mild.same rfl rfl rfl
    · cases hs
      unfold Conn.cancelled
      split
      · exact Mild.same rfl rfl rfl
      · split
        · next uid _ _ _ _ _ _ =>
          refine Mild.trans (b := { c with tasks := c.tasks.eraseIdx k }) (Mild.same rfl rfl rfl) ?_
          exact Mild.trans (change_mild (u := uid) (a := true) (b := false)) (Mild.same rfl rfl rfl)
        · exact complete_mild.after (Mild.same rfl rfl rfl)
  | timeout uid =>
    simp only [step] at hs
    split at hs
    · cases hs
    · exact finish_mild hs
  | disconnectTask => cases hs; exact Mild.same rfl rfl rfl
  | close => cases hs; exact Mild.same rfl rfl rfl
  | connect _ => cases he
  | launch _ => cases he
  | advance => cases he
  | disconnect => cases he
  | setup _ => cases he
  | attempt _ => cases he
  | shutdown => cases he

theorem connects_append (l m : List Trace) : connects (l ++ m) = connects l + connects m := List.countP_append

theorem answers_append (l m : List Trace) : answers (l ++ m) = answers l + answers m := List.countP_append

theorem connects_mild {l : List Trace} (h : ∀ t ∈ l, isLink t = false) : connects l = 0 := by
  refine List.countP_eq_zero.2 fun t ht e => ?_
  have := h t ht
  simp only [decide_eq_true_eq] at e
  subst e
  cases this

theorem answers_mild {l : List Trace} (h : ∀ t ∈ l, isLink t = false) : answers l = 0 := by
  refine List.countP_eq_zero.2 fun t ht e => ?_
  have := h t ht
  simp only [decide_eq_true_eq] at e
  rcases e with e | e <;> subst e <;> cases this

/-- A connect has been accepted and is not answered. -/
def Conn.waiting (c : Conn) : Nat := if c.state = .connecting ∧ c.busy.inConnect = false then 1 else 0

/-- Number of connects = number of answers + what is still waiting. -/
def Linked (c : Conn) : Prop := connects c.log = answers c.log + c.waiting

theorem Linked.mild {c c' : Conn} (h : Linked c) (m : Mild c c') : Linked c' := by
  obtain ⟨s, b, l, e, hl⟩ := m
  unfold Linked Conn.waiting at *
  rw [e, connects_append, answers_append, connects_mild hl, answers_mild hl, s, b, Nat.add_zero, Nat.add_zero]
  exact h

theorem Linked.other {c c' : Conn} (h : Linked c) {l : List Trace} (e : c'.log = c.log ++ l)
    (hl : connects l + c.waiting = answers l + c'.waiting) : Linked c' := by
  unfold Linked at *
  rw [e, connects_append, answers_append]
  omega

/-- What makes `on_connection_complete` come twice. -/
def Event.twice (c : Conn) : Event → Prop
  | .setup .unsent => c.state = .connecting ∨ c.state = .reconnecting
  | .packet (.connack true) => c.state = .connected
  | _ => False

theorem waiting_zero {c : Conn} (h : c.state ≠ .connecting) : c.waiting = 0 := by
  unfold Conn.waiting; rw [if_neg fun e => h e.1]

theorem waiting_one {c : Conn} (h : c.state = .connecting) (hb : c.busy.inConnect = false) : c.waiting = 1 := by
  unfold Conn.waiting; rw [if_pos ⟨h, hb⟩]

theorem waiting_busy {c : Conn} (hb : c.busy.inConnect = true) : c.waiting = 0 := by
  unfold Conn.waiting; rw [if_neg fun e => by rw [hb] at e; cases e.2]

theorem Linked.shutdown {c : Conn} (h : Linked c) (hb : c.busy = .idle) : Linked c.shutdown := by
  refine h.other (l := []) (by simp [Conn.shutdown]) ?_
  by_cases e : c.state = .connecting
  · rw [waiting_one e (by rw [hb]; rfl), waiting_one (by simp [Conn.shutdown, e]) rfl]
    rfl
  · rw [waiting_zero e, waiting_zero (by
      simp only [Conn.shutdown]
      split
      · simp
      · exact e)]
    rfl

theorem Linked.finishDisconnect {c c' : Conn} (h : Linked c) {prev : State} (hp : prev = .connecting ↔ c.state = .connecting)
    (hb : c.busy.inConnect = false) (hs : c.finishDisconnect prev = .ok c') : Linked c' := by
  unfold Conn.finishDisconnect at hs
  refine Linked.mild ?_ (release_mild hs)
  refine h.other rfl ?_
  rw [waiting_zero (c := { c with state := .disconnected, busy := _, pinned := _, log := _ }) (by simp)]
  by_cases e : c.state = .connecting
  · rw [hp.2 e, waiting_one e hb]; rfl
  · rw [waiting_zero e]
    cases prev with
    | connecting => exact absurd (hp.1 rfl) e
    | _ => rfl

theorem Linked.schedule {c c' : Conn} (h : Linked c) (hs : c.schedule = .ok c') : Linked c' := by
  unfold Conn.schedule at hs
  split at hs
  · cases hs
  · cases hs
    exact h.other (l := []) (by simp) rfl

theorem Linked.step {c c' : Conn} {e : Event} (h : Linked c) (hc : Ctl c) (he : Enabled c e = true) (ht : ¬ e.twice c)
    (hs : step c e = .ok c') : Linked c' := by
  by_cases hm : e.isMild = true
  · exact h.mild (step_mild hs hm)
  cases e with
  | connect clean =>
    cases hs
    unfold Conn.connect
    split
    · exact h.mild (Mild.one rfl rfl rfl rfl)
    · next hst =>
      refine h.other (l := []) (by simp) ?_
      rw [waiting_zero (c := c) (by intro e; rw [e] at hst; simp at hst), waiting_busy (by rfl)]
      rfl
  | launch ok =>
    simp only [Enabled, decide_eq_true_eq] at he
    obtain ⟨hst, _⟩ := hc.conn (by rw [he]; rfl)
    cases hs
    cases ok with
    | true =>
      refine h.other (l := [.connecting]) rfl ?_
      rw [waiting_busy (c := c) (by rw [he]; rfl), waiting_one (by exact hst) rfl]
      rfl
    | false =>
      refine h.other (l := [.connectRefused]) rfl ?_
      rw [waiting_busy (c := c) (by rw [he]; rfl), waiting_zero (by simp [Conn.launch])]
      rfl
  | advance =>
    simp only [Client311.step, Conn.advance] at hs
    split at hs
    · next all uid todo next hb =>
      cases hs
      refine h.other (l := [.completed uid .cleanSession]) rfl ?_
      have : c.waiting = ({ c with
          busy := .cancelling all todo next, log := c.log ++ [.completed uid .cleanSession] } : Conn).waiting := by
        unfold Conn.waiting
        rw [hb]
        cases next <;> rfl
      rw [this]
      rfl
    · next all next hb =>
      obtain ⟨rq, tb, tm, e, _⟩ := removeAll_eq all c
      rw [e] at hs
      simp only at hs
      split at hs
      · cases hs
        refine h.other (l := []) (by simp) ?_
        rw [waiting_busy (c := c) (by rw [hb]; rfl), waiting_busy (by rfl)]
        rfl
      · next =>
        have hst := hc.shut _ _ _ hb
        refine Linked.schedule ?_ hs
        refine h.other (l := []) (by simp) ?_
        have hne : c.state ≠ .connecting := by
          rcases hst with ⟨e, _⟩ | ⟨_, e⟩ | ⟨_, e | e, _⟩
          · cases e
          · rw [e]; simp
          · rw [e]; simp
          · rw [e]; simp
        rw [waiting_zero hne, waiting_zero (by exact hne)]
        rfl
      · have hst := hc.shut _ _ _ hb
        have hne : c.state ≠ .connecting := by
          rcases hst with ⟨e, _⟩ | ⟨_, e⟩ | ⟨_, e | e, _⟩
          · cases e
          · rw [e]; simp
          · rw [e]; simp
          · rw [e]; simp
        cases hs
        refine h.other (l := [.interrupted]) rfl ?_
        rw [waiting_zero hne, waiting_zero (by exact hne)]
        rfl
      · have hst := hc.shut _ _ _ hb
        have hne : c.state ≠ .connecting := by
          rcases hst with ⟨e, _⟩ | ⟨_, e⟩ | ⟨_, e | e, _⟩
          · cases e
          · rw [e]; simp
          · rw [e]; simp
          · rw [e]; simp
        cases hs
        refine h.other (l := []) (by simp) ?_
        rw [waiting_zero hne, waiting_zero (by exact hne)]
        rfl
      · next prev hp1 hp2 hp3 =>
        have hst := hc.shut _ _ _ hb
        refine Linked.finishDisconnect ?_ ?_ ?_ hs
        · exact h.other (l := []) (by simp) (by unfold Conn.waiting; rfl)
        · show prev = .connecting ↔ c.state = .connecting
          rcases hst with ⟨e1, e2⟩ | ⟨e1, e2⟩ | ⟨e1, e2, _⟩
          · simp [e1, e2]
          · simp [e1, e2]
          · rcases e1 with e1 | e1 <;> rcases e2 with e2 | e2 <;> simp [e1, e2]
        · show c.busy.inConnect = false
          rw [hb]; rfl
    · next hb =>
      obtain ⟨hst, _⟩ := hc.intr hb
      have hne : c.state ≠ .connecting := by rcases hst with e | e <;> rw [e] <;> simp
      split at hs
      · exact h.finishDisconnect ⟨(fun e => by cases e), fun e => absurd e hne⟩ (by rw [hb]; rfl) hs
      · refine Linked.schedule ?_ hs
        refine h.other (l := []) (by simp) ?_
        rw [waiting_zero hne, waiting_zero (by exact hne)]
        rfl
    · cases hs; exact h
  | disconnect =>
    cases hs
    unfold Conn.disconnect
    split
    · next hst =>
      refine h.other (l := []) (by simp) ?_
      rw [waiting_zero (c := c) (by rcases hst with e | e <;> rw [e] <;> simp), waiting_zero (by simp)]
      rfl
    · exact h
  | setup r =>
    simp only [Enabled, decide_eq_true_eq] at he
    have shut := h.shutdown he.1
    cases hs
    cases r with
    | failed => exact shut
    | refused => exact h.mild (Mild.same rfl rfl rfl)
    | unsent =>
      simp only [Event.twice, not_or] at ht
      simp only [Conn.setup]
      split
      · exact h.mild (Mild.same rfl rfl rfl)
      · next hd =>
        exfalso
        cases hst : c.state with
        | connecting => exact ht.1 hst
        | reconnecting => exact ht.2 hst
        | disconnecting => exact hd hst
        | disconnected => have := (hc.off hst).2.1; rw [he.2] at this; cases this
        | connected =>
          have h1 := (hc.connected hst).1
          rcases hc.driver (by rw [hst]; simp) he.1 with ⟨_, e, _⟩ | ⟨e, _⟩ | ⟨e, _⟩
          · have := (hc.noChan e).1; rw [h1] at this; cases this
          · rw [he.2] at e; cases e
          · rw [he.2] at e; cases e
    | opened =>
      simp only [Conn.setup]
      split
      · exact h.mild (Mild.same rfl rfl rfl)
      · exact h.mild (Mild.one (t := .opened c.nextChan) rfl rfl rfl rfl)
  | packet p =>
    simp only [Enabled, decide_eq_true_eq] at he
    simp only [Client311.step] at hs
    split at hs
    · cases hs
    next n hn =>
    cases p with
    | connack acc =>
      cases hs
      unfold Conn.connack
      split
      · exact h.mild (Mild.one rfl rfl rfl rfl)
      · next hd =>
        have hd : c.state ≠ .disconnecting ∧ c.state ≠ .disconnected := ⟨fun e => hd (.inl e), fun e => hd (.inr e)⟩
        cases acc with
        | true =>
          simp only [Event.twice] at ht
          rw [if_pos rfl]
          simp only
          split
          · next hw =>
            have hw : c.state = .reconnecting := by simpa using hw.1
            refine h.other (l := [.processed n (.connack true), .resumed]) (by simp [Conn.tell]) ?_
            rw [waiting_zero (c := c) (by rw [hw]; simp), waiting_zero (by simp [Conn.tell])]
            rfl
          · next hw =>
            have hst : c.state = .connecting := by
              cases hst : c.state with
              | connecting => rfl
              | connected => exact absurd hst ht
              | disconnecting => exact absurd hst hd.1
              | disconnected => exact absurd hst hd.2
              | reconnecting =>
                exfalso
                apply hw
                have := (hc.reconnecting hst).2
                exact ⟨by simp [hst], Nat.lt_of_le_of_ne (by omega) (by omega)⟩
            refine h.other (l := [.processed n (.connack true), .connectionComplete true]) (by simp) ?_
            rw [waiting_one (c := c) hst (by rw [he.1]; rfl), waiting_zero (by simp)]
            rfl
        | false =>
          rw [if_neg (by simp)]
          exact h.other (l := [.processed n (.connack false), .rejected n]) rfl (by unfold Conn.waiting; simp [connects, answers])
    | _ => exact absurd rfl hm
  | attempt ok =>
    simp only [Enabled, decide_eq_true_eq] at he
    have hne : c.state ≠ .connecting := by rcases hc.scheduled he.2 with e | e <;> rw [e] <;> simp
    simp only [Client311.step, Conn.attempt] at hs
    split at hs
    · split at hs
      · cases hs; exact h.mild (Mild.same rfl rfl rfl)
      · refine Linked.mild ?_ (release_mild hs)
        refine h.other (l := [.disconnected]) rfl ?_
        rw [waiting_zero hne, waiting_zero (by simp)]
        rfl
    · split at hs <;> cases hs <;> exact h.mild (Mild.same rfl rfl rfl)
  | shutdown =>
    simp only [Enabled, decide_eq_true_eq] at he
    cases hs
    exact h.shutdown he.1
  | _ => exact absurd rfl hm

theorem Reachable.linked {c : Conn} {allowed : Conn → Event → Prop} (h : Reachable allowed c)
    (ha : ∀ c e, allowed c e → ¬ e.twice c) : Linked c := by
  induction h with
  | init => rfl
  | step h0 _ he hal hs ih => exact ih.step h0.inv.1 he (ha _ _ hal) hs

theorem Acked.append {log l : List Trace} (h : Acked log) (hl : .connecting ∉ l) : Acked (log ++ l) := by
  obtain ⟨pre, m, post, e, hp⟩ := h
  refine ⟨pre, m, post ++ l, by rw [e]; simp, ?_⟩
  rw [List.mem_append]
  rintro (h | h)
  · exact hp h
  · exact hl h

/-- States after the first CONNACK. -/
def State.past : State → Bool
  | .connected => true
  | .reconnecting => true
  | .disconnecting => true
  | _ => false

def Past (c : Conn) : Prop := c.state.past = true → Acked c.log

theorem not_connecting_mild {l : List Trace} (h : ∀ t ∈ l, isLink t = false) : Trace.connecting ∉ l := by
  intro hm; have := h _ hm; cases this

theorem Past.mild {c c' : Conn} (h : Past c) (m : Mild c c') : Past c' := by
  intro hp
  obtain ⟨s, _, l, e, hl⟩ := m
  rw [e]
  rw [s] at hp
  exact (h hp).append (not_connecting_mild hl)

theorem Past.other {c c' : Conn} (h : Past c) {l : List Trace} (e : c'.log = c.log ++ l) (hl : .connecting ∉ l)
    (hs : c'.state.past = true → c.state.past = true) : Past c' := by
  intro hp
  rw [e]
  exact (h (hs hp)).append hl

theorem Past.step {c c' : Conn} {e : Event} (h : Past c) (hc : Ctl c) (he : Enabled c e = true)
    (hs : step c e = .ok c') : Past c' := by
  by_cases hm : e.isMild = true
  · exact h.mild (step_mild hs hm)
  have shut : c.shutdown.state.past = true → c.state.past = true := by
    simp only [Conn.shutdown]
    split
    · next e => rw [e]; exact fun h => h
    · exact fun h => h
  have fd : ∀ {d : Conn} {prev : State}, d.finishDisconnect prev = .ok c' → Past c' := by
    intro d prev hs
    unfold Conn.finishDisconnect at hs
    refine Past.mild ?_ (release_mild hs)
    intro hp; cases hp
  have sch : ∀ {d : Conn}, d.schedule = .ok c' → Past d → Past c' := by
    intro d hs hd
    unfold Conn.schedule at hs
    split at hs
    · cases hs
    · cases hs; exact hd.other (l := []) (by simp) (by simp) (fun h => h)
  cases e with
  | connect clean =>
    cases hs
    unfold Conn.connect
    split
    · exact h.mild (Mild.one rfl rfl rfl rfl)
    · intro hp; cases hp
  | launch ok =>
    simp only [Enabled, decide_eq_true_eq] at he
    obtain ⟨hst, _⟩ := hc.conn (by rw [he]; rfl)
    cases hs
    cases ok with
    | true => intro hp; have : c.state.past = true := hp; rw [hst] at this; cases this
    | false => intro hp; cases hp
  | advance =>
    simp only [Client311.step, Conn.advance] at hs
    split at hs
    · next uid _ _ _ => cases hs; exact h.other (l := [.completed uid .cleanSession]) rfl (by simp) fun h => h
    · next all next hb =>
      obtain ⟨rq, tb, tm, e, _⟩ := removeAll_eq all c
      rw [e] at hs
      simp only at hs
      split at hs
      · cases hs; exact h.other (l := []) (by simp) (by simp) fun h => h
      · exact sch hs (h.other (l := []) (by simp) (by simp) fun h => h)
      · cases hs; exact h.other (l := [.interrupted]) rfl (by simp) fun h => h
      · cases hs; exact h.other (l := []) (by simp) (by simp) fun h => h
      · exact fd hs
    · split at hs
      · exact fd hs
      · exact sch hs (h.other (l := []) (by simp) (by simp) fun h => h)
    · cases hs; exact h
  | disconnect =>
    cases hs
    unfold Conn.disconnect
    split
    · next hst =>
      refine h.other (l := []) (by simp) (by simp) fun _ => ?_
      rcases hst with e | e <;> rw [e] <;> rfl
    · exact h
  | setup r =>
    cases hs
    cases r with
    | failed => exact h.other (l := []) (by simp [Conn.setup, Conn.shutdown]) (by simp) shut
    | refused => exact h.mild (Mild.same rfl rfl rfl)
    | unsent =>
      simp only [Conn.setup]
      split
      · exact h.mild (Mild.same rfl rfl rfl)
      · exact h.other (l := [.connectionComplete false]) rfl (by simp) fun h => h
    | opened =>
      simp only [Conn.setup]
      split
      · exact h.mild (Mild.same rfl rfl rfl)
      · exact h.mild (Mild.one (t := .opened c.nextChan) rfl rfl rfl rfl)
  | packet p =>
    simp only [Client311.step] at hs
    split at hs
    · cases hs
    next n hn =>
    cases p with
    | connack acc =>
      cases hs
      unfold Conn.connack
      split
      · exact h.mild (Mild.one rfl rfl rfl rfl)
      · cases acc with
        | true =>
          rw [if_pos rfl]
          simp only
          split
          · intro _; exact ⟨c.log, n, [.resumed], by simp [Conn.tell], by simp⟩
          · intro _; exact ⟨c.log, n, [.connectionComplete true], by simp, by simp⟩
        | false =>
          rw [if_neg (by simp)]
          exact h.other (l := [.processed n (.connack false), .rejected n]) rfl (by simp) fun h => h
    | _ => exact absurd rfl hm
  | attempt ok =>
    simp only [Client311.step, Conn.attempt] at hs
    split at hs
    · split at hs
      · cases hs; exact h.mild (Mild.same rfl rfl rfl)
      · refine Past.mild ?_ (release_mild hs)
        intro hp; cases hp
    · split at hs <;> cases hs <;> exact h.mild (Mild.same rfl rfl rfl)
  | shutdown => cases hs; exact h.other (l := []) (by simp [Conn.shutdown]) (by simp) shut
  | _ => exact absurd rfl hm

theorem Reachable.past {c : Conn} {allowed : Conn → Event → Prop} (h : Reachable allowed c) : Past c := by
  induction h with
  | init => intro h; cases h
  | step h0 _ he hal hs ih => exact ih.step h0.inv.1 he hs

/-! ### Packets -/

/-- A packet is acted upon. -/
def isPacket : Trace → Bool
  | .processed .. => true
  | _ => false

/-- The log grows, and no packet is acted upon. -/
def Plain (c c' : Conn) : Prop := ∃ l, c'.log = c.log ++ l ∧ ∀ t ∈ l, isPacket t = false

theorem Plain.same {c c' : Conn} (h : c'.log = c.log) : Plain c c' := ⟨[], by simp [h], by simp⟩

theorem Plain.one {c c' : Conn} {t : Trace} (h : c'.log = c.log ++ [t]) (ht : isPacket t = false) : Plain c c' :=
  ⟨[t], h, by simpa using ht⟩

theorem Plain.trans {a b c : Conn} (h1 : Plain a b) (h2 : Plain b c) : Plain a c := by
  obtain ⟨l, e, hl⟩ := h1
  obtain ⟨m, e2, hm⟩ := h2
  refine ⟨l ++ m, by rw [e2, e, List.append_assoc], ?_⟩
  intro t ht
  rcases List.mem_append.1 ht with h | h
  · exact hl t h
  · exact hm t h

theorem Plain.after {a b c : Conn} (h2 : Plain b c) (h1 : Plain a b) : Plain a c := h1.trans h2

theorem create_plain {c c' : Conn} {kind : Kind} {size : Nat} (h : c.create kind size = .ok c') : Plain c c' := by
  rcases create_cases h with ⟨e, _⟩ | ⟨e, _⟩ | ⟨r, _, ⟨_, e⟩ | ⟨_, _, _, ⟨_, e⟩ | ⟨_, _, _, _, e⟩ | ⟨_, _, e⟩⟩⟩ <;>
    cases e <;> exact Plain.one rfl rfl

theorem finish_plain {c c' : Conn} {id : Nat} {o : Outcome} (h : c.finish id o = .ok c') : Plain c c' := by
  rcases finish_cases h with ⟨_, e⟩ | ⟨u, _, ⟨_, e⟩ | ⟨_, _, e⟩⟩
  · cases e; exact Plain.same rfl
  · cases e; exact Plain.one complete_log rfl
  · cases e

theorem suback_plain {c c' : Conn} {chan id codes : Nat} (h : c.suback chan id codes = .ok c') : Plain c c' := by
  unfold Conn.suback at h
  split at h
  · cases h; exact Plain.same rfl
  · split at h
    · cases h
    · split at h
      · cases h
      · split at h
        · cases h; exact Plain.one rfl rfl
        · exact finish_plain h

theorem release_plain {c c' : Conn} (h : c.release = .ok c') : Plain c c' := by
  rcases release_cases h with ⟨rfl, _⟩ | ⟨rfl, _⟩
  · exact Plain.same rfl
  · exact ⟨c.pending.map (.completed · .destroyed) ++ [.destroyed], by simp [Conn.destroyFinal], by
      intro t ht
      simp only [List.mem_append, List.mem_map, List.mem_singleton] at ht
      rcases ht with ⟨_, _, e⟩ | e <;> cases e <;> rfl⟩

theorem schedule_plain {c c' : Conn} (h : c.schedule = .ok c') : Plain c c' := by
  unfold Conn.schedule at h
  split at h
  · cases h
  · cases h; exact Plain.same rfl

theorem finishDisconnect_plain {c c' : Conn} {prev : State} (h : c.finishDisconnect prev = .ok c') : Plain c c' := by
  unfold Conn.finishDisconnect at h
  refine Plain.trans ?_ (release_plain h)
  refine ⟨_, rfl, ?_⟩
  intro t ht
  split at ht <;> simp at ht <;> subst ht <;> rfl

theorem advance_plain {c c' : Conn} (h : c.advance = .ok c') : Plain c c' := by
  unfold Conn.advance at h
  split at h
  · cases h; exact Plain.one rfl rfl
  · next all next hb =>
    obtain ⟨rq, tb, tm, e, htm⟩ := removeAll_eq all c
    simp only at h
    rw [e] at h
    split at h
    · cases h; exact Plain.same rfl
    · exact (schedule_plain h).after (Plain.same rfl)
    · cases h; exact Plain.one rfl rfl
    · cases h; exact Plain.same rfl
    · exact (finishDisconnect_plain h).after (Plain.same rfl)
  · split at h
    · exact finishDisconnect_plain h
    · exact (schedule_plain h).after (Plain.same rfl)
  · cases h; exact Plain.same rfl

theorem step_plain {c c' : Conn} {e : Event} (h : step c e = .ok c') (he : ∀ p, e ≠ .packet p) : Plain c c' := by
  cases e with
  | create kind size => exact create_plain h
  | connect clean =>
    cases h
    unfold Conn.connect
    split
    · exact Plain.one rfl rfl
    · exact Plain.same rfl
  | launch ok => cases h; cases ok <;> exact Plain.one rfl rfl
  | advance => exact advance_plain h
  | disconnect => cases h; refine Plain.same ?_; unfold Conn.disconnect; split <;> rfl
  | acquire => cases h; exact Plain.same rfl
  | release => exact (release_plain h).after (Plain.same rfl)
  | setup r =>
    cases h
    cases r with
    | failed => exact Plain.same rfl
    | refused => exact Plain.same rfl
    | unsent =>
      simp only [Conn.setup]
      split
      · exact Plain.same rfl
      · exact Plain.one rfl rfl
    | opened =>
      simp only [Conn.setup]
      split
      · exact Plain.same rfl
      · exact Plain.one rfl rfl
  | packet p => exact absurd rfl (he p)
  | ping => exact create_plain h
  | run k result =>
    simp only [Client311.step] at h
    split at h
    · cases h; exact Plain.same rfl
    · next uid chan hk =>
      cases h
      unfold Conn.send
      split
      · exact Plain.same rfl
      · next r hr =>
        split
        · exact Plain.one complete_log rfl
        · simp only
          split
          · exact Plain.one complete_log rfl
          · exact ⟨[.sent uid chan r.initiated, .completed uid .success], by
              rw [complete_log]; simp [Conn.tell], by simp [isPacket]⟩
        · exact Plain.one change_log rfl
  | cancel k =>
    simp only [Client311.step] at h
    split at h
    · cases h; exact Plain.same rfl
    · cases h
      unfold Conn.cancelled
      split
      · exact Plain.same rfl
      · split
        · exact Plain.same change_log
        · exact Plain.one complete_log rfl
  | timeout uid =>
    simp only [Client311.step] at h
    split at h
    · cases h
    · exact finish_plain h
  | attempt ok =>
    simp only [Client311.step, Conn.attempt] at h
    split at h
    · split at h
      · cases h; exact Plain.same rfl
      · exact (release_plain h).after (Plain.one rfl rfl)
    · split at h <;> cases h <;> exact Plain.same rfl
  | disconnectTask => cases h; exact Plain.same rfl
  | close => cases h; exact Plain.same rfl
  | shutdown => cases h; exact Plain.same rfl

/-- A packet other than PINGRESP and CONNACK that is acted upon while the connection is being established. -/
theorem receive_packets {c c' : Conn} {chan : Nat} {p : Packet} (h : c.receive chan p = .ok c') :
    ((c.state = .connecting ∨ p = .pingresp ∨ ∃ a, p = .connack a) ∧
      ∃ l, c'.log = c.log ++ l ∧ ∀ t ∈ l, ∀ n q, t = .processed n q → q = .pingresp ∨ ∃ a, q = .connack a) ∨
    (c.state ≠ .connecting ∧ ∃ l, (c'.log = c.log ++ l ∨ c'.log = c.log ++ .processed chan p :: l) ∧
      ∀ t ∈ l, isPacket t = false) := by
  have bad : ∀ {t q}, p ≠ .pingresp → Plain (c.tell t) c' → t = .processed chan q → q = p → c.state ≠ .connecting →
      (c.state ≠ .connecting ∧ ∃ l, (c'.log = c.log ++ l ∨ c'.log = c.log ++ .processed chan p :: l) ∧
      ∀ t ∈ l, isPacket t = false) := by
    rintro t q _ ⟨l, e, hl⟩ rfl rfl hst
    exact ⟨hst, l, .inr (by rw [e]; simp [Conn.tell]), hl⟩
  unfold Conn.receive at h
  split at h
  · cases h
    exact .inl ⟨.inr (.inl rfl), [_], rfl, by simp⟩
  · next acc =>
    cases h
    refine .inl ⟨.inr (.inr ⟨_, rfl⟩), ?_⟩
    unfold Conn.connack
    split
    · exact ⟨[_], rfl, by simp⟩
    · split
      · simp only
        split
        · exact ⟨[_, _], by simp only [Conn.tell, List.append_assoc]; rfl, by simp⟩
        · exact ⟨[_, _], by simp only [List.append_assoc]; rfl, by simp⟩
      · exact ⟨[_, _], rfl, by simp⟩
  · split at h
    · next hst => cases h; exact .inl ⟨.inl hst, [_], rfl, by simp⟩
    · next hst =>
      refine .inr ?_
      split at h
      · cases h
        split
        · exact ⟨hst, [.replied _], .inr (by simp [Conn.tell]; rfl), by simp [isPacket]⟩
        · exact ⟨hst, [], .inr rfl, by simp⟩
      · exact bad (by simp) (finish_plain h) rfl rfl hst
      · exact bad (by simp) (finish_plain h) rfl rfl hst
      · exact bad (by simp) (finish_plain h) rfl rfl hst
      · exact bad (by simp) (suback_plain h) rfl rfl hst
      · cases h; exact ⟨hst, [.replied _], .inr (by simp [Conn.tell]; rfl), by simp [isPacket]⟩
      · cases h; exact ⟨hst, [.replied _], .inr (by simp [Conn.tell]; rfl), by simp [isPacket]⟩
      · cases h; exact ⟨hst, [.rejected chan], .inl rfl, by simp [isPacket]⟩

/-- Splitting a log at an entry that is not among the new ones. -/
theorem split_old {log l pre post : List Trace} {t : Trace} (e : log ++ l = pre ++ t :: post) (ht : t ∉ l) :
    ∃ post', log = pre ++ t :: post' := by
  rcases List.append_eq_append_iff.1 e with ⟨a, h1, h2⟩ | ⟨a, h1, h2⟩
  · exact absurd (by rw [h2]; simp) ht
  · cases a with
    | nil => exact absurd (by rw [← show _ = l from h2]; simp) ht
    | cons s a =>
      simp only [List.cons_append, List.cons.injEq] at h2
      exact ⟨a, by rw [h1, h2.1]⟩

/-- Splitting a log at an entry that may be the first of the new ones. -/
theorem split_new {log l pre post : List Trace} {t s : Trace} (e : log ++ s :: l = pre ++ t :: post) (ht : t ∉ l) :
    (pre = log ∧ s = t) ∨ ∃ post', log = pre ++ t :: post' := by
  have e : (log ++ [s]) ++ l = pre ++ t :: post := by simpa using e
  obtain ⟨post', e⟩ := split_old e ht
  by_cases hs : t ∈ [s]
  · rw [show pre ++ t :: post' = (pre ++ [t]) ++ post' by simp] at e
    by_cases hp : post' = []
    · subst hp
      rw [List.append_nil] at e
      have := List.append_inj' e rfl
      exact .inl ⟨this.1.symm, by simpa using this.2⟩
    · refine .inr ?_
      obtain ⟨q, x, hq⟩ : ∃ q x, post' = q ++ [x] := ⟨_, _, (List.dropLast_concat_getLast hp).symm⟩
      rw [hq, ← List.append_assoc] at e
      exact ⟨q, by rw [(List.append_inj' e rfl).1]; simp⟩
  · exact .inr (split_old e hs)

/-- Only CONNACK and PINGRESP are acted upon between a connect and the first CONNACK that accepts. -/
theorem Reachable.packets {c : Conn} {allowed : Conn → Event → Prop} (h : Reachable allowed c) {pre post : List Trace}
    {n : Nat} {p : Packet} (e : c.log = pre ++ .processed n p :: post) (h1 : p ≠ .pingresp)
    (h2 : ∀ a, p ≠ .connack a) : Acked pre := by
  induction h generalizing post with
  | init => simp at e
  | @step c0 c1 ev h0 hd he _ hs ih =>
    by_cases hp : ∃ q, ev = .packet q
    · obtain ⟨q, rfl⟩ := hp
      have hen := he
      simp only [Enabled, decide_eq_true_eq] at hen
      simp only [Client311.step] at hs
      split at hs
      · cases hs
      next m hm =>
      rcases receive_packets hs with ⟨_, l, e1, hl⟩ | ⟨hst, l, e1 | e1, hl⟩
      · rw [e1] at e
        obtain ⟨post', e2⟩ := split_old e (fun ht => by
          rcases hl _ ht n p rfl with h | ⟨a, h⟩
          · exact h1 h
          · exact h2 a h)
        exact ih e2
      · rw [e1] at e
        obtain ⟨post', e2⟩ := split_old e (fun ht => by have := hl _ ht; cases this)
        exact ih e2
      · rw [e1] at e
        rcases split_new e (fun ht => by have := hl _ ht; cases this) with ⟨e2, _⟩ | ⟨post', e2⟩
        · rw [e2]
          refine h0.past ?_
          cases hst' : c0.state with
          | connecting => exact absurd hst' hst
          | disconnected => have := (h0.inv.1.off hst').2.2.1; rw [hm] at this; cases this
          | _ => rfl
        · exact ih e2
    · obtain ⟨l, e1, hl⟩ := step_plain hs fun q e => hp ⟨q, e⟩
      rw [e1] at e
      obtain ⟨post', e2⟩ := split_old e (fun ht => by have := hl _ ht; cases this)
      exact ih e2

/-- A request is sent at most once on a channel. -/
theorem Reachable.sendOnce {c : Conn} {allowed : Conn → Event → Prop} (h : Reachable allowed c) {pre post : List Trace}
    {u n : Nat} {d : Bool} (e : c.log = pre ++ .sent u n d :: post) : ¬ SentOn pre u n := by
  induction h generalizing post with
  | init => simp at e
  | @step c0 c1 ev h0 hd he _ hs ih =>
    rcases step_log hs with ⟨l, e1, hl⟩ | ⟨k, result, uid, chan, r, l, rfl, hk, hr, e1, hl⟩
    · rw [e1] at e
      obtain ⟨post', e2⟩ := split_old e (fun ht => by have := hl _ ht; cases this)
      exact ih e2
    · rw [e1] at e
      rcases split_new e (fun ht => by have := hl _ ht; cases this) with ⟨e2, e3⟩ | ⟨post', e2⟩
      · cases e3
        rw [e2]
        simp only [Enabled, hk, Bool.and_eq_true, decide_eq_true_eq] at he
        exact h0.task_unsent he.2.1.symm (List.mem_map.2 ⟨_, List.mem_of_getElem? hk, rfl⟩)
      · exact ih e2

end Mqtt.Client311
