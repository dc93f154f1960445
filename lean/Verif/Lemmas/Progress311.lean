import Verif.Lemmas.Client311Life
import Verif.Spec.Progress311

/-! A 3.1.1 connection gets on. -/
namespace Mqtt.Client311

/-- How many moves a connection is from its next answer, at most. -/
def Conn.phase (c : Conn) : Nat :=
  match c.busy with
  | .cancelling _ todo .connect => 9 + todo.length + c.pending.length + c.ongoing.length
  | .launching => 8 + c.pending.length + c.ongoing.length
  | .cancelling _ todo (.shutdown _) => 3 + todo.length
  | .interrupted => 2
  | .idle =>
    if c.opening then 7 + c.pending.length + c.ongoing.length
    else if c.chan.isSome then
      4 + c.pending.length + c.ongoing.length + c.disconnectTask.toNat + (!c.closing).toNat
    else 1

def Conn.rank (c : Conn) : Nat := 2 * c.tasks.length + c.phase

theorem rank_le (c : Conn) : c.rank ≤ 9 + 2 * c.load := by
  unfold Conn.rank Conn.phase Conn.load
  cases c.busy with
  | idle =>
    simp only
    split
    · omega
    · split
      · have := Bool.toNat_le c.disconnectTask
        have := Bool.toNat_le (!c.closing)
        omega
      · omega
  | launching => simp only; omega
  | interrupted => simp only; omega
  | cancelling all todo next => cases next <;> simp only <;> omega

theorem rank_pos (c : Conn) : 1 ≤ c.rank := by
  unfold Conn.rank Conn.phase
  split <;> (try split) <;> (try split) <;> omega

/-- Nothing is changed but requests; the channel may begin to shut down. -/
structure Aside (g w : Nat) (c c' : Conn) : Prop where
  state : c'.state = c.state
  busy : c'.busy = c.busy
  opening : c'.opening = c.opening
  chan : c'.chan = c.chan
  slot : c'.slot = c.slot
  task : c'.disconnectTask = c.disconnectTask
  held : c'.held = c.held
  alive : c'.destroyed = c.destroyed
  closing : c.closing = true → c'.closing = true
  few : c'.tasks.length ≤ c.tasks.length + g
  less : 2 * c'.tasks.length + c'.pending.length + c'.ongoing.length ≤
    2 * c.tasks.length + c.pending.length + c.ongoing.length + w

theorem Aside.refl (c : Conn) : Aside 0 0 c c := ⟨rfl, rfl, rfl, rfl, rfl, rfl, rfl, rfl, id, Nat.le_refl _, Nat.le_refl _⟩

theorem Aside.trans {a b x y : Nat} {c d e : Conn} (h : Aside a x c d) (k : Aside b y d e) : Aside (a + b) (x + y) c e :=
  ⟨k.state.trans h.state, k.busy.trans h.busy, k.opening.trans h.opening, k.chan.trans h.chan, k.slot.trans h.slot,
    k.task.trans h.task, k.held.trans h.held, k.alive.trans h.alive, fun z => k.closing (h.closing z), by have := h.few; have := k.few; omega,
    by have := h.less; have := k.less; omega⟩

theorem Aside.rank {g w : Nat} {c c' : Conn} (h : Aside g w c c') (hw : 2 * g ≤ w) : c'.rank ≤ c.rank + w := by
  obtain ⟨_, hb, ho, hc, _, ht, _, _, hl, hf, hs⟩ := h
  have hcl : (!c'.closing).toNat ≤ (!c.closing).toNat := by
    cases h1 : c.closing with
    | true => simp [hl h1]
    | false => cases c'.closing <;> simp
  unfold Conn.rank Conn.phase
  rw [hb, ho, hc, ht]
  cases c.busy with
  | idle =>
    simp only
    split
    · omega
    · split <;> omega
  | launching => simp only; omega
  | interrupted => simp only; omega
  | cancelling all todo next => cases next <;> simp only <;> omega

theorem tell_aside (c : Conn) (t : Trace) : Aside 0 0 c (c.tell t) :=
  ⟨rfl, rfl, rfl, rfl, rfl, rfl, rfl, rfl, id, Nat.le_refl _, Nat.le_refl _⟩

theorem reject_aside (c : Conn) (n : Nat) : Aside 0 0 c (c.reject n) :=
  ⟨rfl, rfl, rfl, rfl, rfl, rfl, rfl, rfl, fun _ => rfl, Nat.le_refl _, Nat.le_refl _⟩

theorem change_aside (c : Conn) (u : Nat) (a b : Bool) : Aside 0 0 c (c.change u a b) := by
  unfold Conn.change
  split
  · exact .refl c
  · split
    · exact .refl c
    · exact ⟨rfl, rfl, rfl, rfl, rfl, rfl, rfl, rfl, id, Nat.le_refl _, Nat.le_refl _⟩

theorem remove_aside (c : Conn) (u : Nat) : Aside 0 0 c (c.remove u) := by
  unfold Conn.remove
  split
  · exact .refl c
  · exact ⟨rfl, rfl, rfl, rfl, rfl, rfl, rfl, rfl, id, Nat.le_refl _, Nat.le_refl _⟩

theorem removes_aside (us : List Nat) (c : Conn) : Aside 0 0 c (us.foldl Conn.remove c) := by
  induction us generalizing c with
  | nil => exact .refl c
  | cons u us ih => exact (remove_aside c u).trans (ih _)

theorem complete_aside (c : Conn) (u : Nat) (o : Outcome) : Aside 0 0 c (c.complete u o) :=
  ((tell_aside c _).trans (change_aside _ _ _ _)).trans (remove_aside _ _)

theorem create_aside {c c' : Conn} {kind : Kind} {size : Nat} (hs : c.create kind size = .ok c') : Aside 1 2 c c' := by
  rcases create_cases hs with ⟨e, _⟩ | ⟨e, _⟩ | ⟨r, _, ⟨_, e⟩ | ⟨_, _, _, ⟨_, e⟩ | ⟨hc, chan, hsl, hch, e⟩ | ⟨_, _, e⟩⟩⟩ <;>
    cases e <;>
    exact ⟨rfl, rfl, rfl, rfl, rfl, rfl, rfl, rfl, id, by simp [Conn.added, Conn.tell], by simp [Conn.added, Conn.tell]; try omega⟩

theorem finish_aside {c c' : Conn} {id : Nat} {o : Outcome} (hs : c.finish id o = .ok c') : Aside 0 0 c c' := by
  rcases finish_cases hs with ⟨_, e⟩ | ⟨uid, _, ⟨_, e⟩ | ⟨_, _, e⟩⟩
  · cases e; exact .refl c
  · cases e
    refine (complete_aside c uid o).trans (b := 0) (y := 0) ?_
    refine ⟨rfl, rfl, rfl, rfl, rfl, rfl, rfl, rfl, _root_.id, Nat.le_refl _, ?_⟩
    have h1 := List.length_filter_le (· ≠ uid) (c.complete uid o).ongoing
    have h2 := List.length_filter_le (· ≠ uid) (c.complete uid o).pending
    simp only
    omega
  · cases e

theorem suback_aside {c c' : Conn} {chan id codes : Nat} (hs : c.suback chan id codes = .ok c') : Aside 0 0 c c' := by
  unfold Conn.suback at hs
  split at hs
  · cases hs; exact .refl c
  · split at hs
    · cases hs
    · split at hs
      · cases hs
      · split at hs
        · cases hs; exact reject_aside _ _
        · exact finish_aside hs

/-- A packet that is not a CONNACK which is acted upon. -/
theorem receive_aside {c c' : Conn} {chan : Nat} {p : Packet} (hs : c.receive chan p = .ok c')
    (hp : p = .connack true → c'.state = c.state ∧ c.state ≠ .connected) : Aside 0 0 c c' := by
  cases p with
  | pingresp => cases hs; exact tell_aside _ _
  | connack a =>
    cases hs
    by_cases h1 : c.state = .disconnecting ∨ c.state = .disconnected
    · have e : c.connack chan a = c.tell (.processed chan (.connack a)) := by unfold Conn.connack; rw [if_pos h1]
      rw [e]; exact tell_aside _ _
    · cases a with
      | true =>
        exfalso
        obtain ⟨h2, h3⟩ := hp rfl
        apply h3
        rw [← h2]
        unfold Conn.connack
        rw [if_neg h1]
        simp only [if_true]
        split <;> rfl
      | false =>
        unfold Conn.connack
        rw [if_neg h1]
        exact ⟨rfl, rfl, rfl, rfl, rfl, rfl, rfl, rfl, fun _ => rfl, Nat.le_refl _, Nat.le_refl _⟩
  | publish qos id =>
    simp only [Conn.receive] at hs
    split at hs
    · cases hs; exact reject_aside _ _
    · cases hs
      split
      · exact (tell_aside _ _).trans (tell_aside _ _)
      · exact tell_aside _ _
  | puback id =>
    simp only [Conn.receive] at hs
    split at hs
    · cases hs; exact reject_aside _ _
    · exact (tell_aside _ _).trans (finish_aside hs)
  | unsuback id =>
    simp only [Conn.receive] at hs
    split at hs
    · cases hs; exact reject_aside _ _
    · exact (tell_aside _ _).trans (finish_aside hs)
  | pubcomp id =>
    simp only [Conn.receive] at hs
    split at hs
    · cases hs; exact reject_aside _ _
    · exact (tell_aside _ _).trans (finish_aside hs)
  | suback id codes =>
    simp only [Conn.receive] at hs
    split at hs
    · cases hs; exact reject_aside _ _
    · exact (tell_aside _ _).trans (suback_aside hs)
  | pubrec id =>
    simp only [Conn.receive] at hs
    split at hs
    · cases hs; exact reject_aside _ _
    · cases hs; exact (tell_aside _ _).trans (tell_aside _ _)
  | pubrel id =>
    simp only [Conn.receive] at hs
    split at hs
    · cases hs; exact reject_aside _ _
    · cases hs; exact (tell_aside _ _).trans (tell_aside _ _)
  | other =>
    simp only [Conn.receive] at hs
    split at hs <;> cases hs <;> exact reject_aside _ _
  | malformed =>
    simp only [Conn.receive] at hs
    split at hs <;> cases hs <;> exact reject_aside _ _

theorem send_aside (c : Conn) (u chan : Nat) (r : Sending) : Aside 0 1 c (c.send u chan r) := by
  have up : ∀ {d : Conn}, Aside 0 0 c d → Aside 0 1 c d := fun h => h.trans (b := 0) (y := 1)
    ⟨rfl, rfl, rfl, rfl, rfl, rfl, rfl, rfl, id, Nat.le_refl _, Nat.le_succ _⟩
  unfold Conn.send
  split
  · exact up (.refl c)
  · next q hq =>
    split
    · exact up (complete_aside _ _ _)
    · simp only
      split
      · exact up (complete_aside _ _ _)
      · exact up ((tell_aside _ _).trans (complete_aside _ _ _))
    · next timer topics =>
      simp only
      have h1 : Aside 0 0 c { c.tell (.sent u chan q.initiated) with
          reqs := (c.tell (.sent u chan q.initiated)).reqs.set u { q with
            initiated := true, topics := if q.kind.isSubscribe then topics else q.topics } } :=
        ⟨rfl, rfl, rfl, rfl, rfl, rfl, rfl, rfl, id, Nat.le_refl _, Nat.le_refl _⟩
      refine (h1.trans (change_aside _ u true true)).trans (b := 0) (y := 1) ?_
      exact ⟨rfl, rfl, rfl, rfl, rfl, rfl, rfl, rfl, id, Nat.le_refl _, by simp; omega⟩

theorem cancelled_aside (c : Conn) (u : Nat) : Aside 0 1 c (c.cancelled u) := by
  have up : ∀ {d : Conn}, Aside 0 0 c d → Aside 0 1 c d := fun h => h.trans (b := 0) (y := 1)
    ⟨rfl, rfl, rfl, rfl, rfl, rfl, rfl, rfl, id, Nat.le_refl _, Nat.le_succ _⟩
  unfold Conn.cancelled
  split
  · exact up (.refl c)
  · split
    · refine (change_aside c u true false).trans (b := 0) (y := 1) ?_
      exact ⟨rfl, rfl, rfl, rfl, rfl, rfl, rfl, rfl, id, Nat.le_refl _, by simp; omega⟩
    · exact up (complete_aside _ _ _)

theorem erase_aside {c : Conn} {k : Nat} {t : Nat × Nat} (h : c.tasks[k]? = some t) :
    Aside 0 0 c { c with tasks := c.tasks.eraseIdx k } ∧ Conn.rank { c with tasks := c.tasks.eraseIdx k } + 2 = c.rank := by
  have hk : k < c.tasks.length := (List.getElem?_eq_some_iff.1 h).1
  have e : (c.tasks.eraseIdx k).length + 1 = c.tasks.length := by
    rw [List.length_eraseIdx_of_lt hk]; omega
  refine ⟨⟨rfl, rfl, rfl, rfl, rfl, rfl, rfl, rfl, id, by simp only; omega, by simp only; omega⟩, ?_⟩
  unfold Conn.rank Conn.phase
  simp only
  omega

/-- With a channel, nothing else is going on. -/
theorem Ctl.idle {c : Conn} (h : Ctl c) (hn : c.chan ≠ none) : c.busy = .idle ∧ c.opening = false := by
  have hb : c.busy = .idle := by
    cases hb : c.busy with
    | idle => rfl
    | _ => exact absurd (h.busyOpen (by simp [hb])).2.1 hn
  refine ⟨hb, ?_⟩
  rcases h.driver (fun e => hn (h.off e).2.2.1) hb with h | h | h
  · exact absurd h.2.1 hn
  · exact h.1
  · exact h.1

/-- Events that only concern requests. -/
def Event.isAside : Event → Bool
  | .create .. => true
  | .acquire => false
  | .release => false
  | .packet (.connack true) => false
  | .packet _ => true
  | .ping => true
  | .run .. => true
  | .cancel _ => true
  | .timeout _ => true
  | .close => true
  | _ => false

/-- What the events that concern requests do; `cancel` and `close` are moves. -/
theorem step_aside {c c' : Conn} {e : Event} (hc : Ctl c) (he : Enabled c e = true) (hs : step c e = .ok c')
    (ha : e.isAside = true) :
    (∃ g w, Aside g w c c') ∧
      c'.rank + (e.moves c).toNat ≤ c.rank + 2 * e.isNew.toNat := by
  have z {d : Conn} (h : Aside 0 0 c d) : d.rank ≤ c.rank := h.rank (Nat.le_refl _)
  cases e with
  | create kind size => exact ⟨⟨_, _, create_aside hs⟩, by simpa [Event.moves, Event.isNew] using (create_aside hs).rank (by omega)⟩
  | ping => exact ⟨⟨_, _, create_aside hs⟩, by simpa [Event.moves, Event.isNew] using (create_aside hs).rank (by omega)⟩
  | packet p =>
    simp only [Client311.step] at hs
    split at hs
    · cases hs
    · have h := receive_aside hs (by rintro rfl; cases ha)
      exact ⟨⟨_, _, h⟩, by simpa [Event.moves, Event.isNew] using z h⟩
  | run k result =>
    simp only [Client311.step] at hs
    split at hs
    · cases hs; exact ⟨⟨_, _, .refl c⟩, by simp [Event.moves, Event.isNew]⟩
    · next uid chan hk =>
      cases hs
      have h1 := erase_aside hk
      have h2 := send_aside { c with tasks := c.tasks.eraseIdx k } uid chan result
      refine ⟨⟨_, _, h1.1.trans h2⟩, ?_⟩
      have := h2.rank (by omega)
      simp only [Event.moves, Event.isNew, Bool.toNat_false]
      omega
  | cancel k =>
    simp only [Client311.step] at hs
    split at hs
    · next hk => simp only [Enabled, hk] at he; cases he
    · next uid chan hk =>
      cases hs
      have h1 := erase_aside hk
      have h2 := cancelled_aside { c with tasks := c.tasks.eraseIdx k } uid
      refine ⟨⟨_, _, h1.1.trans h2⟩, ?_⟩
      have := h2.rank (by omega)
      simp only [Event.moves, Event.isNew, Bool.toNat_false, Bool.toNat_true]
      omega
  | timeout uid =>
    simp only [Client311.step] at hs
    split at hs
    · cases hs
    · exact ⟨⟨_, _, finish_aside hs⟩, by simpa [Event.moves, Event.isNew] using z (finish_aside hs)⟩
  | close =>
    cases hs
    refine ⟨⟨0, 0, rfl, rfl, rfl, rfl, rfl, rfl, rfl, rfl, fun _ => rfl, Nat.le_refl _, Nat.le_refl _⟩, ?_⟩
    simp only [Enabled, decide_eq_true_eq] at he
    have hb := hc.idle he
    simp only [Event.moves, Event.isNew, Bool.toNat_false]
    unfold Conn.rank Conn.phase
    simp only [hb.1, hb.2, Option.isSome_iff_ne_none.2 he]
    simp
    omega
  | _ => cases ha

theorem release_kept {c c' : Conn} (hs : c.release = .ok c') (hd : c.state ≠ .disconnected) : c' = c := by
  unfold Conn.release at hs
  split at hs
  · cases hs
  · cases hs; rfl

theorem schedule_ok {c c' : Conn} (hs : c.schedule = .ok c') : c' = { c with reconnect := .scheduled } := by
  unfold Conn.schedule at hs
  split at hs <;> cases hs
  rfl

theorem release_state {c c' : Conn} (hs : c.release = .ok c') : c'.state = c.state ∧ c'.held = c.held ∧
    (c'.destroyed = true → c.destroyed = true ∨ c.state = .disconnected) ∧ ∃ l, c'.log = c.log ++ l := by
  unfold Conn.release at hs
  split at hs
  · split at hs
    · next h => 
      cases hs
      exact ⟨rfl, rfl, fun _ => .inr h, c.pending.map (.completed · .destroyed) ++ [.destroyed], by simp [Conn.destroyFinal]⟩
    · cases hs
  · cases hs; exact ⟨rfl, rfl, .inl, [], by simp⟩

/-- The connection ends: the user is told. -/
theorem finishDisconnect_ends {c c' : Conn} {prev : State} (hs : c.finishDisconnect prev = .ok c') :
    c'.state = .disconnected ∧ c'.held = c.held ∧
    (prev = .connecting → ∃ l, c'.log = c.log ++ .connectionComplete false :: l) ∧
    (prev = .connected ∨ prev = .disconnecting → ∃ l, c'.log = c.log ++ .disconnected :: l) := by
  unfold Conn.finishDisconnect at hs
  obtain ⟨h1, h2, _, l, h3⟩ := release_state hs
  refine ⟨h1, h2, fun h => ⟨l, ?_⟩, fun h => ⟨l, ?_⟩⟩
  · subst h
    simpa using h3
  · rcases h with rfl | rfl <;> simpa using h3

theorem shutdown_rank {c : Conn} : c.shutdown.rank ≤ 3 + (2 * c.tasks.length + c.pending.length + c.ongoing.length) := by
  unfold Conn.rank Conn.phase Conn.shutdown
  simp only
  split <;> simp <;> omega

/-- A move brings the connection nearer to its next answer, as long as its state stays the same. -/
theorem rank_step {c c' : Conn} {e : Event} (hc : Ctl c) (he : Enabled c e = true) (hs : step c e = .ok c')
    (hst : c'.state = c.state) (hd : c.state ≠ .disconnected) (hr : ∀ ok, e = .attempt ok → c.state ≠ .reconnecting)
    (hk : e = .packet (.connack true) → c.state ≠ .connected) :
    c'.rank + (e.moves c).toNat ≤ c.rank + 2 * e.isNew.toNat := by
  by_cases ha : e.isAside = true
  · exact (step_aside hc he hs ha).2
  cases e with
  | connect clean =>
    cases hs
    have e : c.connect clean = c.tell .connectRefused := by unfold Conn.connect; rw [if_pos hd]
    rw [e]
    exact Nat.le_refl _
  | launch ok =>
    simp only [Enabled, decide_eq_true_eq] at he
    cases hs
    cases ok with
    | false => exact absurd hst.symm hd
    | true =>
      unfold Conn.rank Conn.phase
      simp only [he]
      simp [Conn.launch, Event.moves, Event.isNew]
      omega
  | advance =>
    simp only [Client311.step] at hs
    cases hb : c.busy with
    | idle => simp [Enabled, hb] at he
    | launching => simp [Enabled, hb] at he
    | interrupted =>
      simp only [Conn.advance, hb] at hs
      split at hs
      · exact absurd (hst.symm.trans (finishDisconnect_ends hs).1) hd
      · rw [schedule_ok hs]
        have := hc.busyOpen (by simp [hb])
        unfold Conn.rank Conn.phase
        simp [hb, this, Event.moves, Event.isNew]
    | cancelling all todo next =>
      have ho := hc.busyOpen (by simp [hb])
      cases todo with
      | cons u todo =>
        simp only [Conn.advance, hb] at hs
        cases hs
        unfold Conn.rank Conn.phase
        cases next <;> simp [hb, Event.moves, Event.isNew] <;> omega
      | nil =>
        simp only [Conn.advance, hb] at hs
        have hx := removes_aside all c
        generalize all.foldl Conn.remove c = d at hs hx
        have hl := hx.less
        have hf := hx.few
        have hch := hx.chan
        have hop := hx.opening
        split at hs
        · cases hs
          unfold Conn.rank Conn.phase
          simp [hb, Event.moves, Event.isNew]
          omega
        · rw [schedule_ok hs]
          unfold Conn.rank Conn.phase
          simp [hb, hch, hop, ho, Event.moves, Event.isNew]
          omega
        · cases hs
          unfold Conn.rank Conn.phase
          simp [hb, Event.moves, Event.isNew]
          omega
        · next h0 =>
          rcases hc.shut _ _ _ hb with h | h | h
          · cases h.1
          · cases h.1
          · rcases h.1 with h | h <;> cases h
        · exact absurd (hst.symm.trans (finishDisconnect_ends hs).1) hd
  | disconnect =>
    cases hs
    unfold Conn.disconnect at hst ⊢
    split
    · next h =>
      rw [if_pos h] at hst
      rcases h with h | h <;> rw [h] at hst <;> cases hst
    · exact Nat.le_refl _
  | acquire => cases hs; exact Nat.le_refl _
  | release =>
    rw [release_kept hs hd]
    exact Nat.le_refl _
  | setup r =>
    simp only [Enabled, decide_eq_true_eq] at he
    cases hs
    have hdt : c.disconnectTask = false := by
      cases h : c.disconnectTask with
      | false => rfl
      | true =>
        have := hc.task h
        rcases hc.driver hd he.1 with h2 | h2 | h2
        · rw [(hc.noChan h2.2.1).1] at this; cases this
        · rw [he.2] at h2; cases h2.1
        · rw [he.2] at h2; cases h2.1
    have hrank : c.rank = 7 + (2 * c.tasks.length + c.pending.length + c.ongoing.length) := by
      unfold Conn.rank Conn.phase
      simp [he.1, he.2]
      omega
    cases r with
    | failed =>
      have h1 := shutdown_rank (c := c)
      have h2 : (c.setup .failed).rank = c.shutdown.rank := rfl
      simp only [Event.moves, Event.isNew, Bool.toNat_true, Bool.toNat_false]
      omega
    | refused =>
      have h1 : (c.setup .refused).rank ≤ 5 + (2 * c.tasks.length + c.pending.length + c.ongoing.length) := by
        unfold Conn.setup
        simp [Conn.rank, Conn.phase, he.1, hdt]
        omega
      simp only [Event.moves, Event.isNew, Bool.toNat_true, Bool.toNat_false]
      omega
    | unsent =>
      have h1 : (c.setup .unsent).rank ≤ 5 + (2 * c.tasks.length + c.pending.length + c.ongoing.length) := by
        unfold Conn.setup
        simp only
        split <;> simp [Conn.rank, Conn.phase, he.1, hdt] <;> omega
      simp only [Event.moves, Event.isNew, Bool.toNat_true, Bool.toNat_false]
      omega
    | opened =>
      have h1 : (c.setup .opened).rank ≤ 5 + (2 * c.tasks.length + c.pending.length + c.ongoing.length) := by
        unfold Conn.setup
        simp only
        split
        · simp [Conn.rank, Conn.phase, he.1, hdt]; omega
        · have := Bool.toNat_le (!c.closing)
          simp [Conn.rank, Conn.phase, he.1, hdt]; omega
      simp only [Event.moves, Event.isNew, Bool.toNat_true, Bool.toNat_false]
      omega
  | packet p =>
    simp only [Client311.step] at hs
    split at hs
    · cases hs
    · have h := receive_aside hs (by rintro rfl; exact ⟨hst, hk rfl⟩)
      simpa [Event.moves, Event.isNew] using h.rank (Nat.le_refl _)
  | attempt ok =>
    simp only [Enabled, decide_eq_true_eq] at he
    rcases hc.scheduled he.2 with h | h
    · exact absurd h (hr ok rfl)
    · exfalso
      have hsl : c.slot = false := by
        rcases hc.driver hd he.1 with h2 | h2 | h2
        · exact absurd he.2 h2.2.2
        · exact absurd he.2 h2.2.2
        · exact (hc.noChan h2.2.1).1
      simp only [Client311.step, Conn.attempt, h, hsl, if_true] at hs
      have := (release_state hs).1
      simp only at this
      exact hd (hst.symm.trans this)
  | disconnectTask =>
    simp only [Enabled] at he
    cases hs
    have hsl := hc.task he
    have hn : c.chan ≠ none := fun h => by rw [(hc.noChan h).1] at hsl; cases hsl
    have hb := hc.idle hn
    unfold Conn.rank Conn.phase
    simp [Conn.runDisconnectTask, hb.1, hb.2, Option.isSome_iff_ne_none.2 hn, hsl, he, Event.moves, Event.isNew]
    omega
  | shutdown =>
    simp only [Enabled, decide_eq_true_eq] at he
    cases hs
    have h1 := shutdown_rank (c := c)
    have hb := hc.idle he.2.1
    have hrank : c.rank = 4 + (2 * c.tasks.length + c.pending.length + c.ongoing.length) := by
      unfold Conn.rank Conn.phase
      simp [hb.1, hb.2, Option.isSome_iff_ne_none.2 he.2.1, he.2.2.1, he.2.2.2.1]
      omega
    simp only [Event.moves, Event.isNew, Bool.toNat_true, Bool.toNat_false]
    omega
  | _ => exact absurd rfl ha

/-- A channel either has a handler or is being shut down, and so it is when the user has called `disconnect`. -/
def Leaving (c : Conn) : Prop := c.chan ≠ none →
  (c.slot = true ∨ c.state = .disconnecting ∨ c.closing = true) ∧ (c.state = .disconnecting → c.disconnectTask = true ∨ c.closing = true)

theorem Leaving.aside {g w : Nat} {c c' : Conn} (h : Leaving c) (a : Aside g w c c') : Leaving c' := by
  intro hn
  obtain ⟨h1, h2⟩ := h (a.chan ▸ hn)
  rw [a.slot, a.state, a.task]
  exact ⟨h1.imp_right (Or.imp_right a.closing), fun x => (h2 x).imp_right a.closing⟩

theorem Leaving.none {c : Conn} (h : c.chan = .none) : Leaving c := fun x => absurd h x

theorem Leaving.step {c c' : Conn} {e : Event} (h : Leaving c) (hc : Ctl c) (he : Enabled c e = true)
    (hs : Client311.step c e = .ok c') (hc' : Ctl c') : Leaving c' := by
  by_cases ha : e.isAside = true
  · obtain ⟨g, w, a⟩ := (step_aside hc he hs ha).1
    exact h.aside a
  by_cases hb0 : c'.busy ≠ .idle
  · exact .none (hc'.busyOpen hb0).2.1
  have hb : c'.busy = .idle := Decidable.not_not.1 hb0
  by_cases hd' : c'.state = .disconnected
  · exact .none (hc'.off hd').2.2.1
  by_cases hr' : c'.opening = true ∨ c'.reconnect = .scheduled
  · rcases hc'.driver hd' hb with k | k | k
    · exact .none k.2.1
    · rcases hr' with r | r
      · rw [k.1] at r; cases r
      · exact absurd r k.2.2
    · exact .none k.2.1
  cases e with
  | connect clean =>
    cases hs
    unfold Conn.connect at hb ⊢
    split
    · exact h
    · next hx => rw [if_neg hx] at hb; cases hb
  | launch ok =>
    cases hs
    cases ok with
    | false => exact absurd rfl hd'
    | true => exact absurd (.inl rfl) hr'
  | advance =>
    simp only [Enabled, decide_eq_true_eq] at he
    have hch := (hc.busyOpen he.1).2.1
    simp only [Client311.step] at hs
    cases hx : c.busy with
    | idle => exact absurd hx he.1
    | launching => exact absurd hx he.2
    | interrupted =>
      simp only [Conn.advance, hx] at hs
      split at hs
      · exact absurd (finishDisconnect_ends hs).1 hd'
      · rw [schedule_ok hs] at hr'; exact absurd (.inr rfl) hr'
    | cancelling all todo next =>
      cases todo with
      | cons u todo =>
        simp only [Conn.advance, hx] at hs
        cases hs
        cases hb
      | nil =>
        simp only [Conn.advance, hx] at hs
        have hy := removes_aside all c
        generalize all.foldl Conn.remove c = d at hs hy
        split at hs
        · cases hs; cases hb
        · rw [schedule_ok hs] at hr'; exact absurd (.inr rfl) hr'
        · cases hs; cases hb
        · cases hs; exact .none (hy.chan.trans hch)
        · exact absurd (finishDisconnect_ends hs).1 hd'
  | disconnect =>
    cases hs
    unfold Conn.disconnect
    split
    · next hx =>
      intro hn
      refine ⟨.inr (.inl rfl), fun _ => ?_⟩
      rcases (h hn).1 with k | k | k
      · exact .inl (by simp [k])
      · rw [k] at hx; rcases hx with hx | hx <;> cases hx
      · exact .inr k
    · exact h
  | acquire => cases hs; exact h
  | release =>
    rw [release_kept hs (fun e => hd' ((release_state hs).1.trans e))]
    exact h
  | setup r =>
    cases hs
    cases r with
    | failed => exact .none rfl
    | refused => exact fun _ => ⟨.inr (.inr rfl), fun _ => .inr rfl⟩
    | unsent =>
      unfold Conn.setup
      simp only
      split
      · next k => exact fun _ => ⟨.inr (.inl k), fun _ => .inr rfl⟩
      · next k => exact fun _ => ⟨.inl rfl, fun x => absurd x k⟩
    | opened =>
      unfold Conn.setup
      simp only
      split
      · next k => exact fun _ => ⟨.inr (.inl k), fun _ => .inr rfl⟩
      · next k => exact fun _ => ⟨.inl rfl, fun x => absurd x k⟩
  | packet p =>
    simp only [Client311.step] at hs
    split at hs
    · cases hs
    · next n hn =>
      cases p with
      | connack a =>
        cases a with
        | false => exact absurd rfl ha
        | true =>
          simp only [Conn.receive] at hs
          cases hs
          unfold Conn.connack
          split
          · exact h.aside (tell_aside _ _)
          · next hx =>
            have hsl : c.slot = true := by
              simp only [Enabled, decide_eq_true_eq] at he
              exact he.2
            simp only [if_true]
            split
            · exact fun _ => ⟨.inl hsl, nofun⟩
            · exact fun _ => ⟨.inl hsl, nofun⟩
      | _ => exact absurd rfl ha
  | attempt ok =>
    simp only [Enabled, decide_eq_true_eq] at he
    simp only [Client311.step, Conn.attempt] at hs
    have hch : c.chan = .none := by
      rcases hc.driver (fun e => (hc.off e).2.2.2.1 he.2) he.1 with k | k | k
      · exact k.2.1
      · exact absurd he.2 k.2.2
      · exact k.2.1
    split at hs
    · split at hs
      · cases hs; exact .none hch
      · exact absurd (release_state hs).1 hd'
    · split at hs <;> cases hs <;> exact .none hch
  | disconnectTask =>
    simp only [Enabled] at he
    cases hs
    have hsl := hc.task he
    exact fun _ => ⟨.inl hsl, fun _ => .inr (by simp [Conn.runDisconnectTask, hsl])⟩
  | shutdown => cases hs; exact .none rfl
  | _ => exact absurd rfl ha

end Mqtt.Client311
