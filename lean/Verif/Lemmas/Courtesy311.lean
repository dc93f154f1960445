import Verif.Courtesy311
import Verif.Lemmas.Cancel311
import Verif.Lemmas.Disconnect311

namespace Mqtt.Client311

theorem change_nextChan (c : Conn) (u : Nat) (a b : Bool) : (c.change u a b).nextChan = c.nextChan := by
  unfold Conn.change
  split
  · rfl
  · split <;> rfl

theorem complete_nextChan (c : Conn) (u : Nat) (o : Outcome) : (c.complete u o).nextChan = c.nextChan := by
  unfold Conn.complete Conn.remove
  split
  · exact change_nextChan ..
  · exact change_nextChan ..

theorem send_nextChan (c : Conn) (u n : Nat) (r : Sending) : (c.send u n r).nextChan = c.nextChan := by
  unfold Conn.send
  split
  · rfl
  · split
    · exact complete_nextChan ..
    · rw [complete_nextChan]
      split <;> rfl
    · exact change_nextChan ..

/-- Channels are numbered in the order in which they are set up. -/
theorem step_nextChan {c c' : Conn} {e : Event} (hc : Ctl c) (hh : Held c) (he : Enabled c e = true) (hs : step c e = .ok c') :
    c.nextChan ≤ c'.nextChan := by
  by_cases hn : ∀ k result, e ≠ .run k result
  · exact (Keeps.step hc hh he hs hn).nchan
  · cases e with
    | run k result =>
      simp only [step] at hs
      split at hs
      · cases hs; exact Nat.le_refl _
      · cases hs
        rw [send_nextChan]
        exact Nat.le_refl _
    | _ => exact absurd (by intro k r h; cases h) hn

/-- No event but `shutdown` takes the handler out of its channel. -/
theorem step_slot {c c' : Conn} {e : Event} (hc : Ctl c) (he : Enabled c e = true) (hs : step c e = .ok c') (hn : e ≠ .shutdown)
    (hsl : c.slot = true) :
    c'.slot = true ∧ c'.chan = c.chan ∧ (c.closing = true → c'.closing = true) ∧
      (c'.disconnectTask = true → c.disconnectTask = true ∨ e = .disconnect ∧ (c.state = .connected ∨ c.state = .reconnecting) ∧ c'.state = .disconnecting ∧ c'.tasks = c.tasks) ∧
      (c.disconnectTask = true → c'.disconnectTask = true ∨ e = .disconnectTask) := by
  have hch : c.chan ≠ none := fun h => by rw [(hc.noChan h).1] at hsl; cases hsl
  have hb : c.busy = .idle := by
    by_cases hb : c.busy = .idle
    · exact hb
    · exact absurd (hc.busyOpen hb).2.1 hch
  have hnd : c.state ≠ .disconnected := fun h => hch (hc.off h).2.2.1
  by_cases ha : e.isAside = true
  · obtain ⟨⟨g, w, h⟩, _⟩ := step_aside hc he hs ha
    exact ⟨h.slot.trans hsl, h.chan, h.closing, fun x => .inl (h.task ▸ x), fun x => .inl (h.task.trans x)⟩
  have same {d : Conn} (h1 : d.slot = c.slot) (h2 : d.chan = c.chan) (h3 : d.closing = c.closing)
      (h4 : d.disconnectTask = c.disconnectTask) : d.slot = true ∧ d.chan = c.chan ∧ (c.closing = true → d.closing = true) ∧
      (d.disconnectTask = true → c.disconnectTask = true ∨ e = .disconnect ∧ (c.state = .connected ∨ c.state = .reconnecting) ∧ d.state = .disconnecting ∧ d.tasks = c.tasks) ∧
      (c.disconnectTask = true → d.disconnectTask = true ∨ e = .disconnectTask) :=
    ⟨h1.trans hsl, h2, fun x => h3.trans x, fun x => .inl (h4 ▸ x), fun x => .inl (h4.trans x)⟩
  cases e with
  | connect clean =>
    simp only [step, Conn.connect, if_pos hnd] at hs
    cases hs
    exact same rfl rfl rfl rfl
  | launch ok => simp [Enabled, hb] at he
  | advance => simp [Enabled, hb] at he
  | disconnect =>
    simp only [step] at hs
    cases hs
    unfold Conn.disconnect
    split
    · rename_i hst
      exact ⟨hsl, rfl, id, fun _ => .inr ⟨rfl, hst, rfl, rfl⟩, fun x => .inl (by simp [x])⟩
    · exact same rfl rfl rfl rfl
  | acquire => simp only [step] at hs; cases hs; exact same rfl rfl rfl rfl
  | release =>
    simp only [step] at hs
    rw [release_kept hs (by simpa using hnd)]
    exact same rfl rfl rfl rfl
  | setup s =>
    simp only [Enabled, decide_eq_true_eq] at he
    rcases hc.driver hnd hb with h | h | h
    · exact absurd h.2.1 hch
    · rw [he.2] at h; cases h.1
    · exact absurd h.2.1 hch
  | packet p =>
    cases p with
    | connack a =>
      cases a with
      | false => exact absurd rfl ha
      | true =>
        simp only [step] at hs
        split at hs
        · cases hs
        · simp only [Conn.receive, Conn.connack] at hs
          cases hs
          split
          · exact same rfl rfl rfl rfl
          · simp only [if_true]
            split <;> exact same rfl rfl rfl rfl
    | _ => exact absurd rfl ha
  | attempt ok =>
    simp only [Enabled, decide_eq_true_eq] at he
    rcases hc.driver hnd hb with h | h | h
    · exact absurd h.2.1 hch
    · exact absurd he.2 h.2.2
    · exact absurd h.2.1 hch
  | disconnectTask =>
    simp only [step] at hs
    cases hs
    exact ⟨hsl, rfl, fun _ => by simp [Conn.runDisconnectTask, hsl], fun h => (by cases h), fun _ => .inr rfl⟩
  | shutdown => exact absurd rfl hn
  | _ => exact absurd rfl ha

/-- A handler is installed by `setup` only, in a new channel. -/
theorem step_install {c c' : Conn} {e : Event} (hc : Ctl c) (he : Enabled c e = true) (hs : step c e = .ok c')
    (h0 : c.slot = false) (h1 : c'.slot = true) :
    ∃ r, e = .setup r ∧ c'.chan = some c.nextChan ∧ c.closing = false ∧ c'.disconnectTask = c.disconnectTask ∧ c.state ≠ .disconnecting ∧
      ((c'.closing = false ∧ r = .opened ∧ c'.log = c.log ++ [.opened c.nextChan]) ∨ c'.closing = true) := by
  by_cases ha : e.isAside = true
  · obtain ⟨⟨g, w, h⟩, _⟩ := step_aside hc he hs ha
    rw [h.slot, h0] at h1
    cases h1
  have no {d : Conn} {P : Prop} (h : d.slot = c.slot) (hd : d.slot = true) : P := by rw [h, h0] at hd; cases hd
  have rel {d d' : Conn} (h : d.release = .ok d') : d'.slot = d.slot := by
    unfold Conn.release at h
    split at h
    · split at h
      · cases h; rfl
      · cases h
    · cases h; rfl
  cases e with
  | connect clean =>
    simp only [step, Conn.connect] at hs
    cases hs
    split at h1 <;> exact no rfl h1
  | launch ok => simp only [step] at hs; cases hs; unfold Conn.launch at h1; split at h1 <;> exact no rfl h1
  | advance =>
    simp only [step] at hs
    unfold Conn.advance at hs
    split at hs
    · cases hs; exact no rfl h1
    · rename_i all next hb
      have hr := (removes_aside all c).slot
      simp only at hs
      split at hs
      · cases hs; exact no hr h1
      · rw [schedule_ok hs] at h1; exact no hr h1
      · cases hs; exact no hr h1
      · cases hs; exact no hr h1
      · exact no ((rel hs).trans hr) h1
    · split at hs
      · exact no ((rel hs).trans rfl) h1
      · rw [schedule_ok hs] at h1; exact no rfl h1
    · cases hs; exact no rfl h1
  | disconnect => simp only [step] at hs; cases hs; unfold Conn.disconnect at h1; split at h1 <;> exact no rfl h1
  | acquire => simp only [step] at hs; cases hs; exact no rfl h1
  | release => simp only [step] at hs; exact no ((rel hs).trans rfl) h1
  | setup s =>
    simp only [Enabled, decide_eq_true_eq] at he
    have hnd : c.state ≠ .disconnected := fun h => by
      have := (hc.off h).2.1; rw [he.2] at this; cases this
    have hx : c.chan = none := by
      rcases hc.driver hnd he.1 with h | h | h
      · exact h.2.1
      · rw [he.2] at h; cases h.1
      · exact h.2.1
    have hcl := (hc.noChan hx).2.1
    simp only [step] at hs
    cases hs
    refine ⟨s, rfl, ?_⟩
    cases s with
    | failed => cases h1
    | refused => exact no rfl h1
    | unsent =>
      simp only [Conn.setup] at h1 ⊢
      split at h1
      · exact no rfl h1
      · rename_i hst
        simp [hst, hcl]
    | opened =>
      simp only [Conn.setup] at h1 ⊢
      split at h1
      · exact no rfl h1
      · rename_i hst
        simp [hst, hcl]
  | packet p =>
    cases p with
    | connack a =>
      cases a with
      | false => exact absurd rfl ha
      | true =>
        simp only [Enabled, decide_eq_true_eq] at he
        rw [h0] at he
        cases he.2
    | _ => exact absurd rfl ha
  | attempt ok =>
    simp only [step, Conn.attempt] at hs
    split at hs
    · split at hs
      · cases hs; exact no rfl h1
      · exact no ((rel hs).trans rfl) h1
    · split at hs <;> cases hs <;> exact no rfl h1
  | disconnectTask => simp only [step] at hs; cases hs; exact no rfl h1
  | shutdown => simp only [step] at hs; cases hs; cases h1
  | _ => exact absurd rfl ha

/-- No tasks are scheduled while the connection is being disconnected. -/
theorem step_tasks {c c' : Conn} {e : Event} (hs : step c e = .ok c')
    (hst : c.state = .disconnecting) : ∀ t ∈ c'.tasks, t ∈ c.tasks := by
  by_cases ha : e.isAside = true
  · exact (step_fewer hs ha hst).tasks
  have rel {d d' : Conn} (h : d.release = .ok d') : d'.tasks = d.tasks := (release_less h).1
  have rem (all : List Nat) : ∀ d : Conn, (all.foldl Conn.remove d).tasks = d.tasks := by
    induction all with
    | nil => intro d; rfl
    | cons u all ih =>
      intro d
      rw [List.foldl_cons, ih]
      unfold Conn.remove
      split <;> rfl
  have eq {d : Conn} (h : d.tasks = c.tasks) : ∀ t ∈ d.tasks, t ∈ c.tasks := fun t ht => h ▸ ht
  cases e with
  | connect clean => simp only [step, Conn.connect] at hs; cases hs; split <;> exact eq rfl
  | launch ok => simp only [step] at hs; cases hs; unfold Conn.launch; split <;> exact eq rfl
  | advance =>
    simp only [step] at hs
    unfold Conn.advance at hs
    split at hs
    · cases hs; exact eq rfl
    · rename_i all next hb
      have hr := rem all c
      simp only at hs
      split at hs
      · cases hs; exact eq hr
      · rw [schedule_ok hs]; exact eq hr
      · cases hs; exact eq hr
      · cases hs; exact eq hr
      · exact eq ((rel hs).trans hr)
    · rw [if_pos hst] at hs
      exact eq ((rel hs).trans rfl)
    · cases hs; exact eq rfl
  | disconnect => simp only [step] at hs; cases hs; unfold Conn.disconnect; split <;> exact eq rfl
  | acquire => simp only [step] at hs; cases hs; exact eq rfl
  | release => simp only [step] at hs; exact eq ((rel hs).trans rfl)
  | setup s =>
    simp only [step] at hs
    cases hs
    cases s <;> simp only [Conn.setup] <;> first | exact eq rfl | (rw [if_pos hst]; exact eq rfl)
  | packet p =>
    cases p with
    | connack a =>
      cases a with
      | false => exact absurd rfl ha
      | true =>
        simp only [step] at hs
        split at hs
        · cases hs
        · simp only [Conn.receive, Conn.connack, hst] at hs
          cases hs
          exact eq rfl
    | _ => exact absurd rfl ha
  | attempt ok =>
    simp only [step, Conn.attempt] at hs
    rw [if_pos hst] at hs
    split at hs
    · cases hs; exact eq rfl
    · exact eq ((rel hs).trans rfl)
  | disconnectTask => simp only [step] at hs; cases hs; exact eq rfl
  | shutdown => simp only [step] at hs; cases hs; exact eq rfl
  | _ => exact absurd rfl ha

theorem step_chan {c c' : Conn} {e : Event} (hc : Ctl c) (hh : Held c) (he : Enabled c e = true) (hs : step c e = .ok c') {n : Nat}
    (h : c'.chan = some n) : c.chan = some n ∨ n = c.nextChan := by
  by_cases hn : ∀ k result, e ≠ .run k result
  · rcases (Keeps.step hc hh he hs hn).back with q | q | q
    · rw [q] at h; cases h
    · rw [q] at h; cases h; exact .inr rfl
    · exact .inl (q.1 ▸ h)
  · have ha : e.isAside = true := by
      cases e with
      | run k result => rfl
      | _ => exact absurd (by intro k r h; cases h) hn
    obtain ⟨⟨g, w, q⟩, _⟩ := step_aside hc he hs ha
    exact .inl (q.chan ▸ h)

end Mqtt.Client311

namespace Mqtt.Courtesy311

open Mqtt.Client311

/-- What an event writes goes to the channel there is, or is the CONNECT of a new one. -/
theorem emitted_mem {c c' : Conn} {e : Client311.Event} (he : Client311.Enabled c e = true) (hs : Client311.step c e = .ok c')
    {x : Nat × Item} (h : x ∈ emitted c c' e) :
    (x.2 = .connect ∧ x.1 = c.nextChan ∧ c'.chan = some c.nextChan) ∨
    (x.2 = .packet ∧ c.chan = some x.1 ∧ ((∃ k r u, e = .run k r ∧ c.tasks[k]? = some (u, x.1)) ∨ ∃ p, e = .packet p)) := by
  unfold emitted at h
  simp only at h
  split at h
  · rename_i r
    split at h
    · rename_i ho
      simp only [List.mem_singleton] at h
      subst h
      refine .inl ⟨rfl, rfl, ?_⟩
      simp only [Client311.step] at hs
      cases hs
      cases r with
      | failed => simp [Conn.setup, Conn.shutdown] at ho
      | refused => rfl
      | unsent => simp only [Conn.setup]; split <;> rfl
      | opened => simp only [Conn.setup]; split <;> rfl
    · cases h
  · rename_i k r
    split at h
    · rename_i t ht
      split at h
      · simp only [List.mem_singleton] at h
        subst h
        simp only [Client311.Enabled, ht, Bool.and_eq_true, decide_eq_true_eq] at he
        exact .inr ⟨rfl, he.2.1.symm, .inl ⟨k, r, t.1, rfl, ht⟩⟩
      · cases h
    · cases h
  · rename_i p
    split at h
    · obtain ⟨n, hn, e⟩ := List.mem_map.1 h
      subst e
      exact .inr ⟨rfl, by simpa using hn, .inr ⟨p, rfl⟩⟩
    · cases h
  · cases h

/-- Nothing but CONNECT precedes, no other follows; and if `S`, nothing follows. -/
def Ordered (S : Prop) (wire : List (Nat × Item)) : Prop :=
  ∀ pre n post, wire = pre ++ (n, .disconnect) :: post →
    (n, .connect) ∈ pre ∧ (n, .disconnect) ∉ post ∧ (S → ∀ x ∈ post, x.1 ≠ n)

theorem Ordered.add {S : Prop} {wire em : List (Nat × Item)} (h : Ordered S wire) (h1 : ∀ x ∈ em, x.2 ≠ .disconnect)
    (h2 : S → ∀ x ∈ em, (x.1, .disconnect) ∉ wire) : Ordered S (wire ++ em) := by
  intro pre n post e
  rcases List.append_eq_append_iff.1 e with ⟨a, e1, e2⟩ | ⟨a, e1, e2⟩
  · exact absurd rfl (h1 (n, .disconnect) (by rw [e2]; simp))
  · cases a with
    | nil => exact absurd rfl (h1 (n, .disconnect) (by rw [← show _ = em from e2]; simp))
    | cons t a =>
      simp only [List.cons_append, List.cons.injEq] at e2
      obtain ⟨rfl, rfl⟩ := e2
      obtain ⟨g1, g2, g3⟩ := h pre n a e1
      refine ⟨g1, fun hm => ?_, fun hS x hx => ?_⟩
      · rcases List.mem_append.1 hm with hm | hm
        · exact g2 hm
        · exact h1 _ hm rfl
      · rcases List.mem_append.1 hx with hx | hx
        · exact g3 hS x hx
        · intro ex
          exact h2 hS x hx (by rw [ex, e1]; simp)

theorem Ordered.last {S : Prop} {wire : List (Nat × Item)} {n : Nat} (h : Ordered S wire) (h1 : (n, .connect) ∈ wire)
    (h2 : (n, .disconnect) ∉ wire) : Ordered S (wire ++ [(n, .disconnect)]) := by
  intro pre m post e
  rcases List.append_eq_append_iff.1 e with ⟨a, e1, e2⟩ | ⟨a, e1, e2⟩
  · cases a with
    | nil =>
      simp only [List.nil_append, List.cons.injEq, Prod.mk.injEq, and_true] at e2
      obtain ⟨rfl, rfl⟩ := e2
      rw [List.append_nil] at e1
      exact ⟨e1 ▸ h1, by simp, by simp⟩
    | cons t a => simp at e2
  · cases a with
    | nil =>
      simp only [List.nil_append, List.cons.injEq, Prod.mk.injEq, and_true] at e2
      obtain ⟨rfl, rfl⟩ := e2
      rw [List.append_nil] at e1
      exact ⟨e1 ▸ h1, by simp, by simp⟩
    | cons t a =>
      simp only [List.cons_append, List.cons.injEq] at e2
      obtain ⟨rfl, rfl⟩ := e2
      obtain ⟨g1, g2, g3⟩ := h pre m a e1
      have hne : n ≠ m := fun e => h2 (by rw [e, e1]; simp)
      refine ⟨g1, fun hm => ?_, fun hS x hx => ?_⟩
      · rcases List.mem_append.1 hm with hm | hm
        · exact g2 hm
        · simp only [List.mem_singleton, Prod.mk.injEq, and_true] at hm
          exact hne hm.symm
      · rcases List.mem_append.1 hx with hx | hx
        · exact g3 hS x hx
        · simp only [List.mem_singleton] at hx
          subst hx
          exact hne

/-- `G`: no other part shuts the channel down without an error. `S`: nor is disconnect() called while an operation is about to schedule
its task. -/
structure Inv (G S : Prop) (w : World) : Prop where
  conn : Client311.Reachable (fun _ _ => True) w.conn
  task : w.conn.disconnectTask = true → w.conn.state = .disconnecting
  none : w.conn.closing = false → w.cause = none
  done : w.done = true → w.conn.slot = true ∧ w.conn.closing = true
  low : ∀ x ∈ w.wire, x.1 < w.conn.nextChan
  said : ∀ n, (n, .disconnect) ∈ w.wire → w.conn.chan = some n → w.done = true ∧ w.cause = some true
  first : w.conn.slot = true → (w.conn.closing = false ∨ w.cause = some true) → ∀ n, w.conn.chan = some n → (n, .connect) ∈ w.wire
  asked : G → w.cause = some true → w.conn.slot = true → w.conn.state = .disconnecting
  ahead : S → w.conn.disconnectTask = true → ∀ t ∈ w.conn.tasks, some t.2 = w.conn.chan → t.1 ∈ w.ahead
  clear : S → w.cause = some true → w.conn.slot = true → ∀ t ∈ w.conn.tasks, some t.2 ≠ w.conn.chan
  order : Ordered S w.wire

variable {G S : Prop} {w w' : World}

theorem Inv.init : Inv G S {} :=
  ⟨.init, by simp, by simp, by simp, by simp, by simp, by simp, by simp, by simp, by simp, by
    intro pre n post e; simp at e⟩

theorem Inv.advance (h : Inv G S w) (hSG : S → G) {e : Client311.Event} {c : Conn} (hd : w.conn.destroyed = false)
    (he : Enabled w (.base e) = true) (hs : Client311.step w.conn e = .ok c) (hl : S → e = .disconnect → w.late = []) :
    Inv G S (advance w c e) := by
  simp only [Enabled, Bool.and_eq_true] at he
  obtain ⟨he, hx⟩ := he
  obtain ⟨hctl, hheld⟩ := h.conn.inv
  have hr' : Client311.Reachable (fun _ _ => True) c := .step h.conn hd he trivial hs
  obtain ⟨hctl', _⟩ := hr'.inv
  have hnc := step_nextChan hctl hheld he hs
  have hlow : ∀ x ∈ w.wire ++ emitted w.conn c e, x.1 < c.nextChan := by
    intro x hx
    rcases List.mem_append.1 hx with hx | hx
    · exact Nat.lt_of_lt_of_le (h.low x hx) hnc
    · rcases emitted_mem he hs hx with ⟨_, h1, h2⟩ | ⟨_, h1, _⟩
      · rw [h1]; exact hctl'.chans _ h2
      · exact Nat.lt_of_lt_of_le (hctl.chans _ h1) hnc
  have hdisc : ∀ n, (n, Item.disconnect) ∈ w.wire ++ emitted w.conn c e → (n, Item.disconnect) ∈ w.wire := by
    intro n hn
    rcases List.mem_append.1 hn with hn | hn
    · exact hn
    · rcases emitted_mem he hs hn with ⟨q, _⟩ | ⟨q, _⟩ <;> cases q
  have hord : Ordered S (w.wire ++ emitted w.conn c e) := by
    refine h.order.add (fun x hx => ?_) (fun hS x hxm hw => ?_)
    · rcases emitted_mem he hs hx with ⟨q, _⟩ | ⟨q, _⟩ <;> rw [q] <;> simp
    · rcases emitted_mem he hs hxm with ⟨_, h1, _⟩ | ⟨_, h1, h2⟩
      · have := h.low _ hw
        simp only [h1] at this
        exact absurd this (Nat.lt_irrefl _)
      · obtain ⟨hdn, hca⟩ := h.said _ hw h1
        rcases h2 with ⟨k, r, u, rfl, hk⟩ | ⟨p, rfl⟩
        · exact h.clear hS hca (h.done hdn).1 _ (List.mem_of_getElem? hk) h1.symm
        · simp [hdn] at hx
  by_cases hsd : e = .shutdown
  · subst hsd
    simp only [Client311.step] at hs
    cases hs
    have hdt : w.conn.disconnectTask = false := by
      simp only [Client311.Enabled, decide_eq_true_eq] at he
      exact he.2.2.2.1
    refine ⟨hr', fun q => ?_, fun _ => rfl, fun q => ?_, hlow, fun n _ q => ?_, fun q => ?_, fun _ _ q => ?_, fun _ q => ?_,
      fun _ _ q => ?_, hord⟩
    · simp [Courtesy311.advance, Conn.shutdown, hdt] at q
    · simp [Courtesy311.advance] at q
    · simp [Courtesy311.advance, Conn.shutdown] at q
    · simp [Courtesy311.advance, Conn.shutdown] at q
    · simp [Courtesy311.advance, Conn.shutdown] at q
    · simp [Courtesy311.advance, Conn.shutdown, hdt] at q
    · simp [Courtesy311.advance, Conn.shutdown] at q
  have hcause : c.closing = false → (Courtesy311.advance w c e).cause = Option.none := by
    intro q; simp [Courtesy311.advance, q]
  have hdone : (Courtesy311.advance w c e).done = w.done := by simp [Courtesy311.advance, hsd]
  cases hsl : w.conn.slot with
  | true =>
    obtain ⟨k1, k2, k3, k4, k5⟩ := step_slot hctl he hs hsd hsl
    have hch' : c.chan ≠ Option.none := fun q => by rw [(hctl'.noChan q).1] at k1; cases k1
    have leave : w.conn.state = .disconnecting → c.state = .disconnecting := fun q =>
      (step_leaving hctl he hs q hsd (fun z => hch' (hctl'.off z).2.2.1)).1
    have hset : ∀ r, e ≠ .setup r := by
      rintro r rfl
      simp only [Client311.Enabled, decide_eq_true_eq] at he
      have hnd : w.conn.state ≠ .disconnected := fun z => by
        have := (hctl.off z).2.1; rw [he.2] at this; cases this
      rcases hctl.driver hnd he.1 with q | q | q
      · rw [(hctl.noChan q.2.1).1] at hsl; cases hsl
      · rw [he.2] at q; cases q.1
      · rw [(hctl.noChan q.2.1).1] at hsl; cases hsl
    have hca : (Courtesy311.advance w c e).cause = some true → w.cause = some true ∨ (w.conn.closing = false ∧ e = .disconnectTask) := by
      intro q
      simp only [Courtesy311.advance] at q
      split at q
      · split at q
        · exact .inl q
        · rename_i hcl
          refine .inr ⟨by simpa using hcl, ?_⟩
          cases e with
          | disconnectTask => rfl
          | setup r => exact absurd rfl (hset r)
          | _ => simp [noError] at q
      · cases q
    refine ⟨hr', fun q => ?_, hcause, fun q => ?_, hlow, fun n hn q => ?_, fun _ q n hn => ?_, fun hG q _ => ?_, fun hS q t ht hon => ?_,
      fun hS q _ t ht => ?_, hord⟩
    · rcases k4 q with q | q
      · exact leave (h.task q)
      · exact q.2.2.1
    · rw [hdone] at q
      exact ⟨k1, k3 (h.done q).2⟩
    · obtain ⟨g1, g2⟩ := h.said n (hdisc n hn) (k2 ▸ q)
      have g3 := (h.done g1).2
      exact ⟨hdone.trans g1, by simp [Courtesy311.advance, k3 g3, g3, g2]⟩
    · refine List.mem_append.2 (.inl (h.first hsl ?_ n (k2 ▸ hn)))
      rcases q with q | q
      · refine .inl ?_
        cases hcl : w.conn.closing with
        | false => rfl
        | true => exact absurd (k3 hcl) (by rw [show c.closing = false from q]; simp)
      · rcases hca q with q | q
        · exact .inr q
        · exact .inl q.1
    · rcases hca q with q | q
      · exact leave (h.asked hG q hsl)
      · obtain ⟨_, rfl⟩ := q
        exact leave (h.task he)
    · have hon' : some t.2 = w.conn.chan := k2 ▸ hon
      simp only [Courtesy311.advance]
      by_cases hdt : w.conn.disconnectTask = true
      · rw [if_neg (by simp [hdt])]
        exact h.ahead hS hdt t (step_tasks hs (h.task hdt) t ht) hon'
      · rcases k4 q with q' | ⟨q1, _, _, q2⟩
        · exact absurd q' hdt
        · rw [if_pos ⟨by simpa using hdt, q⟩, hl hS q1]
          refine List.mem_filter.2 ⟨List.mem_map.2 ⟨t, ?_, rfl⟩, rfl⟩
          exact q2 ▸ ht
    · show some t.2 ≠ c.chan
      rw [k2]
      rcases hca q with q | q
      · exact h.clear hS q hsl t (step_tasks hs (h.asked (hSG hS) q hsl) t ht)
      · obtain ⟨_, rfl⟩ := q
        have ht' := step_tasks hs (h.task he) t ht
        intro hon
        have h1 := h.ahead hS he t ht' hon
        have h2 := List.all_eq_true.1 hx t ht'
        simp [onChan, hon, h1] at h2
  | false =>
    have hdn : w.done = false := by
      cases q : w.done with
      | false => rfl
      | true => have := (h.done q).1; rw [hsl] at this; cases this
    have hdt : w.conn.disconnectTask = false := by
      cases q : w.conn.disconnectTask with
      | false => rfl
      | true => have := hctl.task q; rw [hsl] at this; cases this
    have hsaid : ∀ n, (n, Item.disconnect) ∈ w.wire ++ emitted w.conn c e → c.chan ≠ some n := by
      intro n hn q
      have hn := hdisc n hn
      rcases step_chan hctl hheld he hs q with q | q
      · have := (h.said n hn q).1; rw [hdn] at this; cases this
      · have := h.low _ hn
        simp only [q] at this
        exact Nat.lt_irrefl _ this
    cases hsl' : c.slot with
    | false =>
      have hdt' : c.disconnectTask = false := by
        cases q : c.disconnectTask with
        | false => rfl
        | true => have := hctl'.task q; rw [hsl'] at this; cases this
      have no {P : Prop} (q : c.slot = true) : P := by rw [hsl'] at q; cases q
      have no2 {P : Prop} (q : c.disconnectTask = true) : P := by rw [hdt'] at q; cases q
      refine ⟨hr', fun q => no2 q, hcause, fun q => ?_, hlow, fun n hn q => absurd q (hsaid n hn), fun q => no q, fun _ _ q => no q,
        fun _ q => no2 q, fun _ _ q => no q, hord⟩
      rw [hdone, hdn] at q
      cases q
    | true =>
      obtain ⟨r, rfl, i1, i2, i3, i4, i5⟩ := step_install hctl he hs hsl hsl'
      have no2 {P : Prop} (q : c.disconnectTask = true) : P := by rw [i3, hdt] at q; cases q
      have hne : noError w.conn (.setup r) = false := by cases r <;> simp [noError, i4]
      have hca : (Courtesy311.advance w c (.setup r)).cause ≠ some true := by
        simp only [Courtesy311.advance, i2, hne]
        split <;> simp
      refine ⟨hr', fun q => no2 q, hcause, fun q => ?_, hlow, fun n hn q => absurd q (hsaid n hn), fun _ q n hn => ?_,
        fun _ q => absurd q hca, fun _ q => no2 q, fun _ q => absurd q hca, hord⟩
      · rw [hdone, hdn] at q
        cases q
      · rcases q with q | q
        · rcases i5 with ⟨_, rfl, j⟩ | j
          · have hn : c.chan = some n := hn
            rw [i1] at hn
            cases hn
            refine List.mem_append.2 (.inr ?_)
            simp [emitted, j, isOpened]
          · rw [show c.closing = false from q] at j; cases j
        · exact absurd q hca

theorem Inv.step (h : Inv G S w) (hSG : S → G) {e : Event} (hd : w.conn.destroyed = false) (he : Enabled w e = true)
    (hg : G → e ≠ .gone) (hl : S → e = .base .disconnect → w.late = []) (hs : Courtesy311.step w e = .ok w') : Inv G S w' := by
  cases e with
  | base e =>
    simp only [Courtesy311.step] at hs
    split at hs
    · cases hs
    · rename_i c hc
      cases hs
      exact h.advance hSG hd he hc fun hS q => hl hS (by rw [q])
  | begin kind size =>
    simp only [Courtesy311.step] at hs
    split at hs
    · cases hs
    · rename_i c hc
      cases hs
      have k := h.advance hSG (e := .create kind size) hd (by simpa [Enabled] using he) hc (fun _ q => by cases q)
      exact ⟨k.conn, k.task, k.none, k.done, k.low, k.said, k.first, k.asked, k.ahead, k.clear, k.order⟩
  | finish uid =>
    simp only [Courtesy311.step] at hs
    cases hs
    exact ⟨h.conn, h.task, h.none, h.done, h.low, h.said, h.first, h.asked, h.ahead, h.clear, h.order⟩
  | gone =>
    simp only [Courtesy311.step, Client311.step] at hs
    cases hs
    have k := h.advance hSG (e := .close) (c := { w.conn with closing := true }) hd (by simpa [Enabled] using he) rfl
      (fun _ q => by cases q)
    have hem : emitted w.conn { w.conn with closing := true } .close = [] := rfl
    refine ⟨k.conn, k.task, fun q => (by cases q), fun q => ⟨(k.done q).1, rfl⟩, k.low, fun n hn q => ?_, fun q hq n hn => ?_,
      fun q => absurd rfl (hg q), k.ahead, fun q => absurd rfl (hg (hSG q)), k.order⟩
    · have hn : (n, Item.disconnect) ∈ w.wire := by simpa [Courtesy311.advance, hem] using hn
      obtain ⟨g1, g2⟩ := h.said n hn q
      exact ⟨by simpa [Courtesy311.advance] using g1, by simp [(h.done g1).2, g2]⟩
    · refine List.mem_append.2 (.inl (h.first q ?_ n hn))
      cases hcl : w.conn.closing with
      | false => exact .inl rfl
      | true =>
        rcases hq with hq | hq
        · cases hq
        · simp only [hcl, if_true] at hq
          exact .inr hq
  | write =>
    simp only [Enabled, decide_eq_true_eq] at he
    obtain ⟨_, e1, e2, e3⟩ := he
    simp only [Courtesy311.step] at hs
    cases hs
    obtain ⟨n, hn⟩ : ∃ n, w.conn.chan = some n := by
      cases q : w.conn.chan with
      | none => rw [(h.conn.inv.1.noChan q).1] at e1; cases e1
      | some n => exact ⟨n, rfl⟩
    have hnew : (n, Item.disconnect) ∉ w.wire := fun q => by
      have := (h.said n q hn).1
      rw [e3] at this
      cases this
    by_cases hca : w.cause = some true
    · simp only [hca, if_true, hn, Option.toList_some, List.map_cons, List.map_nil]
      refine ⟨h.conn, h.task, ?_, fun _ => ⟨e1, e2⟩, fun x hx => ?_, fun _ _ _ => ⟨rfl, rfl⟩, fun _ _ m hm => ?_, fun q _ => h.asked q hca,
        h.ahead, fun q _ => h.clear q hca, h.order.last (h.first e1 (.inr hca) n hn) hnew⟩
      · intro q
        simp only [e2] at q
        cases q
      · rcases List.mem_append.1 hx with hx | hx
        · exact h.low x hx
        · simp only [List.mem_singleton] at hx
          subst hx
          exact h.conn.inv.1.chans _ hn
      · exact List.mem_append.2 (.inl (h.first e1 (.inr hca) m hm))
    · simp only [hca, if_false, List.append_nil]
      refine ⟨h.conn, h.task, h.none, fun _ => ⟨e1, e2⟩, h.low, fun m hm q => ?_, h.first, h.asked, h.ahead, h.clear, h.order⟩
      rw [hn] at q
      cases q
      exact absurd hm hnew

theorem Reachable.inv {allowed : World → Event → Prop} (hSG : S → G) (hg : G → ∀ w e, allowed w e → e ≠ .gone)
    (hl : S → ∀ w e, allowed w e → e = .base .disconnect → w.late = []) (h : Reachable allowed w) : Inv G S w := by
  induction h with
  | init => exact .init
  | step _ hd he ha hs ih => exact ih.step hSG hd he (fun q => hg q _ _ ha) (fun q => hl q _ _ ha) hs

/-- What follows until the channel has been shut down. -/
inductive Later (w : World) : World → Prop where
  | refl : Later w w
  | step {a b : World} {e : Event} : Later w a → a.conn.destroyed = false → Enabled a e = true → e ≠ .base .shutdown →
    Courtesy311.step a e = .ok b → Later w b

/-- A channel is shutting down without an error. -/
structure Parting (n : Nat) (w : World) : Prop where
  slot : w.conn.slot = true
  chan : w.conn.chan = some n
  closing : w.conn.closing = true
  cause : w.cause = some true
  wire : w.done = true → (n, .disconnect) ∈ w.wire

theorem Parting.advance {n : Nat} (h : Parting n w) (hc : Ctl w.conn) {e : Client311.Event} {c : Conn}
    (he : Client311.Enabled w.conn e = true) (hs : Client311.step w.conn e = .ok c) (hn : e ≠ .shutdown) : Parting n (advance w c e) := by
  obtain ⟨k1, k2, k3, _⟩ := step_slot hc he hs hn h.slot
  refine ⟨k1, k2.trans h.chan, k3 h.closing, ?_, fun q => ?_⟩
  · simp [Courtesy311.advance, k3 h.closing, h.closing, h.cause]
  · have q : w.done = true := by simpa [Courtesy311.advance, hn] using q
    exact List.mem_append.2 (.inl (h.wire q))

theorem Parting.step {n : Nat} (h : Parting n w) (hc : Ctl w.conn) {e : Event} (he : Enabled w e = true) (hn : e ≠ .base .shutdown)
    (hs : Courtesy311.step w e = .ok w') : Parting n w' := by
  cases e with
  | base e =>
    simp only [Enabled, Bool.and_eq_true] at he
    simp only [Courtesy311.step] at hs
    split at hs
    · cases hs
    · rename_i c hc'
      cases hs
      exact h.advance hc he.1 hc' fun q => hn (by rw [q])
  | begin kind size =>
    simp only [Enabled] at he
    simp only [Courtesy311.step] at hs
    split at hs
    · cases hs
    · rename_i c hc'
      cases hs
      have k := h.advance hc he hc' (fun q => by cases q)
      exact ⟨k.slot, k.chan, k.closing, k.cause, k.wire⟩
  | finish uid =>
    simp only [Courtesy311.step] at hs
    cases hs
    exact ⟨h.slot, h.chan, h.closing, h.cause, h.wire⟩
  | gone =>
    simp only [Courtesy311.step, Client311.step] at hs
    cases hs
    exact ⟨h.slot, h.chan, rfl, by simp [h.closing, h.cause], fun q => List.mem_append.2 (.inl (h.wire (by simpa [Courtesy311.advance] using q)))⟩
  | write =>
    simp only [Courtesy311.step] at hs
    cases hs
    exact ⟨h.slot, h.chan, h.closing, h.cause, fun _ => by simp [h.cause, h.chan]⟩

theorem Later.reachable {a b : World} (h : Later a b) (hr : Reachable (fun _ _ => True) a) : Reachable (fun _ _ => True) b := by
  induction h with
  | refl => exact hr
  | step _ hd he _ hs ih => exact .step ih hd he trivial hs

theorem Later.parting {a b : World} {n : Nat} (h : Later a b) (hr : Reachable (fun _ _ => True) a) (hp : Parting n a) : Parting n b := by
  induction h with
  | refl => exact hp
  | step hl _ he hn hs ih =>
    have k := (hl.reachable hr).inv (G := False) (S := False) (fun q => q.elim) (fun q => q.elim) (fun q => q.elim)
    exact ih.step k.conn.inv.1 he hn hs

end Mqtt.Courtesy311
