import Verif.Lemmas.Progress311
import Verif.Lemmas.Client311Log

/-! Histories of a 3.1.1 connection that go on. -/
namespace Mqtt.Client311

theorem step_grows {c c' : Conn} {e : Event} (hs : step c e = .ok c') : ∃ l, c'.log = c.log ++ l := by
  rcases step_log hs with ⟨l, h, _⟩ | ⟨_, _, _, _, _, l, _, _, _, h, _⟩
  · exact ⟨l, h⟩
  · exact ⟨_, h⟩

/-- How a state is left. -/
inductive Left (c : Conn) (e : Event) (c' : Conn) : Prop where
  | connect (clean : Bool) : e = .connect clean → c.state = .disconnected → c'.state = .connecting → Left c e c'
  | refused : e = .launch false → c.busy.inConnect = true → c'.state = .disconnected → Left c e c'
  | answered (ok : Bool) (l : List Trace) : c.state = .connecting → c'.log = c.log ++ l → .connectionComplete ok ∈ l →
    c'.state = (if ok then .connected else .disconnected) → Left c e c'
  | lost : e = .shutdown → c.state = .connected → c'.state = .reconnecting → Left c e c'
  | resumed (l : List Trace) : c.state = .reconnecting → c'.log = c.log ++ l → .resumed ∈ l → c'.state = .connected →
    Left c e c'
  | disconnect : e = .disconnect → (c.state = .connected ∨ c.state = .reconnecting) → c'.state = .disconnecting →
    Left c e c'
  | ended (l : List Trace) : c.state = .disconnecting → c'.log = c.log ++ l → .disconnected ∈ l →
    c'.state = .disconnected → Left c e c'

theorem removes_log (us : List Nat) (c : Conn) : (us.foldl Conn.remove c).log = c.log := by
  induction us generalizing c with
  | nil => rfl
  | cons u us ih =>
    rw [List.foldl_cons, ih]
    unfold Conn.remove
    split <;> rfl

theorem step_left {c c' : Conn} {e : Event} (hc : Ctl c) (he : Enabled c e = true) (hs : step c e = .ok c')
    (hn : c'.state ≠ c.state) : Left c e c' := by
  by_cases hm : e.isMild = true
  · exact absurd (step_mild hs hm).state hn
  cases e with
  | connect clean =>
    cases hs
    unfold Conn.connect at hn ⊢
    split
    · next h => rw [if_pos h] at hn; exact absurd rfl hn
    · next h => exact .connect clean rfl (Decidable.not_not.1 h) rfl
  | launch ok =>
    simp only [Enabled, decide_eq_true_eq] at he
    cases hs
    cases ok with
    | false => exact .refused rfl (by rw [he]; rfl) rfl
    | true => exact absurd rfl hn
  | advance =>
    simp only [Enabled, decide_eq_true_eq] at he
    simp only [Client311.step] at hs
    cases hx : c.busy with
    | idle => exact absurd hx he.1
    | launching => exact absurd hx he.2
    | interrupted =>
      simp only [Conn.advance, hx] at hs
      split at hs
      · next h =>
        obtain ⟨h1, _, _, h2⟩ := finishDisconnect_ends hs
        obtain ⟨l, h2⟩ := h2 (.inl rfl)
        exact .ended _ h h2 (by simp) h1
      · rw [schedule_ok hs] at hn; exact absurd rfl hn
    | cancelling all todo next =>
      cases todo with
      | cons u todo =>
        simp only [Conn.advance, hx] at hs
        cases hs
        exact absurd rfl hn
      | nil =>
        simp only [Conn.advance, hx] at hs
        have hy := (removes_aside all c).state
        have hl := removes_log all c
        generalize all.foldl Conn.remove c = d at hs hy hl
        split at hs
        · cases hs; exact absurd hy hn
        · rw [schedule_ok hs] at hn; exact absurd hy hn
        · cases hs; exact absurd hy hn
        · cases hs; exact absurd hy hn
        · next prev h1 h2 h3 =>
          obtain ⟨k1, _, k2, k3⟩ := finishDisconnect_ends hs
          rw [hl] at k2 k3
          rcases hc.shut _ _ _ hx with h | h | h
          · obtain ⟨l, k⟩ := k2 h.1
            exact .answered false _ h.2 k (by simp) k1
          · obtain ⟨l, k⟩ := k3 (.inr h.1)
            exact .ended _ h.2 k (by simp) k1
          · exfalso
            rcases h.1 with h | h
            · subst h; exact h2 rfl
            · subst h; exact h1 rfl
  | disconnect =>
    cases hs
    unfold Conn.disconnect at hn ⊢
    split
    · next h => exact .disconnect rfl h rfl
    · next h => rw [if_neg h] at hn; exact absurd rfl hn
  | setup r =>
    simp only [Enabled, decide_eq_true_eq] at he
    cases hs
    exfalso
    cases r with
    | failed =>
      by_cases h : c.state = .connected
      · have := (hc.connected h).1
        have hd : c.state ≠ .disconnected := by rw [h]; simp
        rcases hc.driver hd he.1 with k | k | k
        · rw [(hc.noChan k.2.1).1] at this; cases this
        · rw [he.2] at k; cases k.1
        · rw [he.2] at k; cases k.1
      · apply hn
        show (if c.state = .connected then State.reconnecting else c.state) = c.state
        rw [if_neg h]
    | refused => exact hn rfl
    | unsent =>
      apply hn
      unfold Conn.setup
      simp only
      split <;> rfl
    | opened =>
      apply hn
      unfold Conn.setup
      simp only
      split <;> rfl
  | packet p =>
    simp only [Enabled, decide_eq_true_eq] at he
    simp only [Client311.step] at hs
    split at hs
    · cases hs
    · next n _ =>
      cases p with
      | connack a =>
        simp only [Conn.receive] at hs
        cases hs
        by_cases h1 : c.state = .disconnecting ∨ c.state = .disconnected
        · exfalso
          apply hn
          unfold Conn.connack
          rw [if_pos h1]; rfl
        · cases a with
          | false =>
            exfalso
            apply hn
            unfold Conn.connack
            rw [if_neg h1]; rfl
          | true =>
            have e : c.connack n true = if c.state = .reconnecting ∧ c.count + 1 > 1 then
                { c with
                  state := .connected
                  tasks := c.tasks ++ c.pending.map (·, n)
                  pending := []
                  count := c.count + 1
                  log := c.log ++ [.processed n (.connack true)] ++ [.resumed] }
              else
                { c with
                  state := .connected
                  tasks := c.tasks ++ c.pending.map (·, n)
                  pending := []
                  count := c.count + 1
                  reconnect := if c.reconnect = .absent then .idle else c.reconnect
                  log := c.log ++ [.processed n (.connack true)] ++ [.connectionComplete true] } := by
              unfold Conn.connack
              rw [if_neg h1]
              simp only [if_true, Conn.tell]
            rw [e] at hn ⊢
            cases hst : c.state with
            | disconnecting => exact absurd (.inl hst) h1
            | disconnected => exact absurd (.inr hst) h1
            | connected =>
              exfalso
              apply hn
              rw [hst]
              split <;> rfl
            | connecting =>
              rw [if_neg (by simp)]
              exact .answered true [.processed n (.connack true), .connectionComplete true] hst (by simp) (by simp) rfl
            | reconnecting =>
              have := (hc.reconnecting hst).2
              rw [if_pos ⟨rfl, by omega⟩]
              exact .resumed [.processed n (.connack true), .resumed] hst (by simp) (by simp) rfl
      | _ => exact absurd rfl hm
  | attempt ok =>
    simp only [Client311.step, Conn.attempt] at hs
    split at hs
    · next hst =>
      split at hs
      · cases hs; exact absurd rfl hn
      · obtain ⟨h1, _, _, l, h2⟩ := release_state hs
        exact .ended (.disconnected :: l) hst (by simpa using h2) (by simp) h1
    · split at hs <;> cases hs <;> exact absurd rfl hn
  | shutdown =>
    cases hs
    have e : c.shutdown.state = if c.state = .connected then .reconnecting else c.state := rfl
    rw [e] at hn
    split at hn
    · next h => exact .lost rfl h (by rw [e, if_pos h])
    · exact absurd rfl hn
  | _ => exact absurd rfl hm

/-- Only calls change how many references there are; only a disconnected connection is destroyed. -/
theorem step_held {c c' : Conn} {e : Event} (hc : Ctl c) (he : Enabled c e = true) (hs : step c e = .ok c') :
    (e.isCall = false → c'.held = c.held) ∧ (c'.destroyed = true → c.destroyed = true ∨ c'.state = .disconnected) := by
  by_cases ha : e.isAside = true
  · obtain ⟨g, w, a⟩ := (step_aside hc he hs ha).1
    exact ⟨fun _ => a.held, fun h => .inl (a.alive ▸ h)⟩
  cases e with
  | connect clean =>
    refine ⟨nofun, fun h => .inl ?_⟩
    cases hs
    rw [← h]
    unfold Conn.connect
    split <;> rfl
  | launch ok => cases hs; cases ok <;> exact ⟨fun _ => rfl, .inl⟩
  | advance =>
    have fin : ∀ {d f : Conn} {p}, d.finishDisconnect p = .ok f → d.held = c.held →
        (false = false → f.held = c.held) ∧ (f.destroyed = true → c.destroyed = true ∨ f.state = .disconnected) :=
      fun h k => ⟨fun _ => (finishDisconnect_ends h).2.1.trans k, fun _ => .inr (finishDisconnect_ends h).1⟩
    simp only [Client311.step] at hs
    unfold Conn.advance at hs
    split at hs
    · cases hs; exact ⟨fun _ => rfl, .inl⟩
    · next all next hx =>
      have hy := removes_aside all c
      simp only at hs
      generalize all.foldl Conn.remove c = d at hs hy
      split at hs
      · cases hs; exact ⟨fun _ => hy.held, fun h => .inl (hy.alive ▸ h)⟩
      · rw [schedule_ok hs]; exact ⟨fun _ => hy.held, fun h => .inl (hy.alive ▸ h)⟩
      · cases hs; exact ⟨fun _ => hy.held, fun h => .inl (hy.alive ▸ h)⟩
      · cases hs; exact ⟨fun _ => hy.held, fun h => .inl (hy.alive ▸ h)⟩
      · exact fin hs hy.held
    · split at hs
      · exact fin hs rfl
      · rw [schedule_ok hs]; exact ⟨fun _ => rfl, .inl⟩
    · cases hs; exact ⟨fun _ => rfl, .inl⟩
  | disconnect =>
    refine ⟨nofun, fun h => .inl ?_⟩
    cases hs
    rw [← h]
    unfold Conn.disconnect
    split <;> rfl
  | acquire => cases hs; exact ⟨nofun, .inl⟩
  | release =>
    obtain ⟨h1, _, h2, _⟩ := release_state hs
    exact ⟨nofun, fun h => (h2 h).imp id h1.trans⟩
  | setup r =>
    cases hs
    cases r with
    | failed => exact ⟨fun _ => rfl, .inl⟩
    | refused => exact ⟨fun _ => rfl, .inl⟩
    | unsent =>
      unfold Conn.setup
      simp only
      split <;> exact ⟨fun _ => rfl, .inl⟩
    | opened =>
      unfold Conn.setup
      simp only
      split <;> exact ⟨fun _ => rfl, .inl⟩
  | packet p =>
    simp only [Client311.step] at hs
    split at hs
    · cases hs
    · cases p with
      | connack a =>
        refine ⟨fun _ => ?_, fun h => .inl (receive_destroyed hs ▸ h)⟩
        simp only [Conn.receive] at hs
        cases hs
        unfold Conn.connack
        split
        · rfl
        · split
          · simp only
            split <;> rfl
          · rfl
      | _ => exact absurd rfl ha
  | attempt ok =>
    simp only [Client311.step, Conn.attempt] at hs
    split at hs
    · split at hs
      · cases hs; exact ⟨fun _ => rfl, .inl⟩
      · obtain ⟨h1, h2, h3, _⟩ := release_state hs
        exact ⟨fun _ => h2, fun _ => .inr h1⟩
    · split at hs <;> cases hs <;> exact ⟨fun _ => rfl, .inl⟩
  | disconnectTask => cases hs; exact ⟨fun _ => rfl, .inl⟩
  | shutdown => cases hs; exact ⟨fun _ => rfl, .inl⟩
  | _ => exact absurd rfl ha

theorem release_busy {c c' : Conn} (hs : c.release = .ok c') : c'.busy = c.busy := by
  unfold Conn.release at hs
  split at hs
  · split at hs <;> cases hs
    rfl
  · cases hs; rfl

/-- `connect` is entered only when it is called and accepted. -/
theorem step_inConnect {c c' : Conn} {e : Event} (hs : step c e = .ok c') (h : c.busy.inConnect = false)
    (hn : c'.state = c.state) : c'.busy.inConnect = false := by
  by_cases hm : e.isMild = true
  · rw [(step_mild hs hm).busy]; exact h
  cases e with
  | connect clean =>
    cases hs
    unfold Conn.connect at hn ⊢
    split
    · exact h
    · next k =>
      rw [if_neg k] at hn
      exact absurd (hn.symm.trans rfl) (by rw [Decidable.not_not.1 k]; simp)
  | launch ok => cases hs; cases ok <;> rfl
  | advance =>
    simp only [Client311.step] at hs
    unfold Conn.advance at hs
    split at hs
    · next all u todo next hx =>
      rw [hx] at h
      cases hs
      cases next <;> exact h
    · next all next hx =>
      rw [hx] at h
      simp only at hs
      split at hs
      · cases h
      · rw [schedule_ok hs]; rfl
      · cases hs; rfl
      · cases hs; rfl
      · rw [release_busy hs]; rfl
    · split at hs
      · rw [release_busy hs]; rfl
      · rw [schedule_ok hs]; rfl
    · cases hs; exact h
  | disconnect =>
    cases hs
    unfold Conn.disconnect
    split <;> exact h
  | setup r =>
    cases hs
    cases r with
    | failed => rfl
    | refused => exact h
    | unsent =>
      unfold Conn.setup
      simp only
      split <;> exact h
    | opened =>
      unfold Conn.setup
      simp only
      split <;> exact h
  | packet p =>
    simp only [Client311.step] at hs
    split at hs
    · cases hs
    · cases p with
      | connack a =>
        simp only [Conn.receive] at hs
        cases hs
        unfold Conn.connack
        split
        · exact h
        · split
          · simp only
            split <;> exact h
          · exact h
      | _ => exact absurd rfl hm
  | attempt ok =>
    simp only [Client311.step, Conn.attempt] at hs
    split at hs
    · split at hs
      · cases hs; exact h
      · rw [release_busy hs]; exact h
    · split at hs <;> cases hs <;> exact h
  | shutdown => cases hs; rfl
  | _ => exact absurd rfl hm

variable {allowed : Conn → Event → Prop}

theorem Reachable.leaving {c : Conn} (h : Reachable allowed c) : Leaving c := by
  induction h with
  | init => exact .none rfl
  | step h0 hd he ha hs ih => exact ih.step h0.inv.1 he hs (h0.step hd he ha hs).inv.1

/-- A destroyed connection is disconnected. -/
theorem Reachable.gone {c : Conn} (h : Reachable allowed c) (hd : c.destroyed = true) : c.state = .disconnected := by
  cases h with
  | init => rfl
  | step h0 hd0 he ha hs =>
    rcases (step_held h0.inv.1 he hs).2 hd with k | k
    · rw [hd0] at k; cases k
    · exact k

theorem Run.reachable {c d : Conn} {es : List Event} {n : Nat} (r : Run c es n d) (h : Reachable (fun _ _ => True) c) :
    Reachable (fun _ _ => True) d := by
  induction r with
  | nil => exact h
  | snoc _ hd he hs ih => exact ih.step hd he trivial hs

theorem Run.grows {c d : Conn} {es : List Event} {n : Nat} (r : Run c es n d) : ∃ l, d.log = c.log ++ l := by
  induction r with
  | nil => exact ⟨[], by simp⟩
  | snoc _ _ _ hs ih =>
    obtain ⟨l, h⟩ := ih
    obtain ⟨m, k⟩ := step_grows hs
    exact ⟨l ++ m, by rw [k, h, List.append_assoc]⟩

/-- Either the state is left by one of the events, or each move has brought the connection nearer to its next answer. -/
theorem Run.rank {c d : Conn} {es : List Event} {n : Nat} (r : Run c es n d) (h : Reachable (fun _ _ => True) c)
    (hd : c.state ≠ .disconnected) (hr : c.state = .reconnecting → ∀ ok, .attempt ok ∉ es)
    (hk : c.state = .connected → .packet (.connack true) ∉ es) :
    (d.state = c.state ∧ d.rank + n ≤ c.rank + 2 * es.countP Event.isNew ∧
      (c.busy.inConnect = false → d.busy.inConnect = false)) ∨
    ∃ d1 d2 e, e ∈ es ∧ (∃ l, d1.log = c.log ++ l) ∧ d1.state = c.state ∧
      (c.busy.inConnect = false → d1.busy.inConnect = false) ∧ Left d1 e d2 ∧ ∃ l, d.log = d2.log ++ l := by
  induction r with
  | nil => exact .inl ⟨rfl, by simp, id⟩
  | @snoc es n d d' e r0 hd0 he hs ih =>
    have hx := (r0.reachable h).inv.1
    rcases ih (fun k ok hm => hr k ok (List.mem_append_left _ hm)) (fun k hm => hk k (List.mem_append_left _ hm)) with
      ⟨h1, h2, h3⟩ | ⟨d1, d2, f, hf, h1, h2, h3, h4, l, h5⟩
    · by_cases hn : d'.state = d.state
      · left
        refine ⟨hn.trans h1, ?_, fun k => step_inConnect hs (h3 k) hn⟩
        have := rank_step hx he hs hn (h1 ▸ hd)
          (fun ok k q => hr (h1 ▸ q) ok (by rw [k]; simp)) (fun k q => hk (h1 ▸ q) (by rw [k]; simp))
        rw [List.countP_append, List.countP_singleton]
        cases hm : e.moves d <;> cases hw : e.isNew <;> simp [hm, hw] at this ⊢ <;> omega
      · right
        exact ⟨d, d', e, by simp, r0.grows, h1, h3, step_left hx he hs hn, [], by simp⟩
    · right
      obtain ⟨m, k⟩ := step_grows hs
      exact ⟨d1, d2, f, List.mem_append_left _ hf, h1, h2, h3, h4, l ++ m, by rw [k, h5, List.append_assoc]⟩

/-- What is told in a history. -/
theorem Left.told {c d d1 d2 : Conn} {l : List Trace} {t : Trace} (h1 : ∃ l, d1.log = c.log ++ l)
    (h2 : d2.log = d1.log ++ l) (ht : t ∈ l) (h3 : ∃ l, d.log = d2.log ++ l) : ∃ l, d.log = c.log ++ l ∧ t ∈ l := by
  obtain ⟨a, h1⟩ := h1
  obtain ⟨b, h3⟩ := h3
  exact ⟨a ++ l ++ b, by rw [h3, h2, h1]; simp, by simp [ht]⟩

theorem release_off {c : Conn} (h : c.state = .disconnected) : ∃ c', c.release = .ok c' := by
  unfold Conn.release
  split
  · exact ⟨_, rfl⟩
  · exact ⟨_, rfl⟩

theorem removes_reconnect (us : List Nat) (c : Conn) : (us.foldl Conn.remove c).reconnect = c.reconnect := by
  induction us generalizing c with
  | nil => rfl
  | cons u us ih =>
    rw [List.foldl_cons, ih]
    unfold Conn.remove
    split <;> rfl

/-- What carries the connection on next. -/
theorem Reachable.next {c : Conn} (h : Reachable allowed c) (hd : c.state ≠ .disconnected) :
    ∃ e c', e.moves c = true ∧ Enabled c e = true ∧ Client311.step c e = .ok c' ∧
      (e = .close → c.state ≠ .disconnecting ∧ c.slot = true) := by
  have hc := h.inv.1
  have fin : ∀ d p, ∃ c', Conn.finishDisconnect d p = .ok c' := by
    intro d p
    exact release_off rfl
  have sch : ∀ d : Conn, d.reconnect ≠ .absent → ∃ c', d.schedule = .ok c' := by
    intro d hr
    exact ⟨_, by unfold Conn.schedule; rw [if_neg hr]⟩
  cases hb : c.busy with
  | launching => exact ⟨.launch true, _, rfl, by simp [Enabled, hb], rfl, nofun⟩
  | interrupted =>
    have : ∃ c', c.advance = .ok c' := by
      unfold Conn.advance
      simp only [hb]
      split
      · exact fin _ _
      · exact sch _ (hc.intr hb).2
    obtain ⟨c', k⟩ := this
    exact ⟨.advance, c', rfl, by simp [Enabled, hb], k, nofun⟩
  | cancelling all todo next =>
    have : ∃ c', c.advance = .ok c' := by
      unfold Conn.advance
      cases todo with
      | cons u todo => simp only [hb]; exact ⟨_, rfl⟩
      | nil =>
        simp only [hb]
        split
        · exact ⟨_, rfl⟩
        · refine sch _ ?_
          have hy := removes_reconnect all c
          rcases hc.shut _ _ _ hb with k | k | k
          · cases k.1
          · cases k.1
          · exact hy ▸ k.2.2
        · exact ⟨_, rfl⟩
        · exact ⟨_, rfl⟩
        · exact fin _ _
    obtain ⟨c', k⟩ := this
    exact ⟨.advance, c', rfl, by simp [Enabled, hb], k, nofun⟩
  | idle =>
    rcases hc.driver hd hb with k | k | k
    · exact ⟨.setup .opened, _, rfl, by simp [Enabled, hb, k.1], rfl, nofun⟩
    · by_cases h1 : c.disconnectTask = true
      · exact ⟨.disconnectTask, _, rfl, by simp [Enabled, h1], rfl, nofun⟩
      · have h1 : c.disconnectTask = false := by simpa using h1
        by_cases h2 : c.closing = true
        · by_cases h3 : c.held = 0 → c.tasks = []
          · exact ⟨.shutdown, _, rfl, by
              simp only [Enabled, decide_eq_true_eq]; exact ⟨hb, k.2.1, h2, h1, h3⟩, rfl, nofun⟩
          · have h4 : c.tasks ≠ [] := fun q => h3 fun _ => q
            obtain ⟨t, ts, h5⟩ := List.exists_cons_of_ne_nil h4
            refine ⟨.cancel 0, { c with tasks := c.tasks.eraseIdx 0 }.cancelled t.1, rfl, ?_, ?_, nofun⟩
            · simp [Enabled, h5, h2]
            · simp [Client311.step, h5]
        · have h2 : c.closing = false := by simpa using h2
          obtain ⟨q1, q2⟩ := h.leaving k.2.1
          have h3 : c.state ≠ .disconnecting := fun q => by
            rcases q2 q with q | q
            · rw [h1] at q; cases q
            · rw [h2] at q; cases q
          refine ⟨.close, _, by simp [Event.moves, h2], by simp [Enabled, k.2.1], rfl, fun _ => ⟨h3, ?_⟩⟩
          exact q1.resolve_right fun q => q.elim h3 fun q => by rw [h2] at q; cases q
    · refine ⟨.attempt true, ?_⟩
      have hsl := (hc.noChan k.2.1).1
      have : ∃ c', c.attempt true = .ok c' := by
        unfold Conn.attempt
        split
        · simp only [hsl]
          exact release_off rfl
        · exact ⟨_, rfl⟩
      obtain ⟨c', q⟩ := this
      exact ⟨c', rfl, by simp [Enabled, hb, k.2.2], q, nofun⟩

/-- A connection without users that is disconnecting ends, and is destroyed. -/
theorem Run.ending {c d : Conn} {es : List Event} {n : Nat} (r : Run c es n d) (h : Reachable (fun _ _ => True) c)
    (hst : c.state = .disconnecting) (hh : c.held = 0) (ha : ∀ e ∈ es, e.isCall = false) :
    d.held = 0 ∧ n ≤ c.rank + 2 * es.countP Event.isNew ∧
      ((d.state = .disconnecting ∧ d.rank + n ≤ c.rank + 2 * es.countP Event.isNew) ∨ d.destroyed = true) := by
  induction r with
  | nil => exact ⟨hh, by simp, .inl ⟨hst, by simp⟩⟩
  | @snoc es n d d' e r0 hd0 he hs ih =>
    have hr := r0.reachable h
    have hx := hr.inv.1
    have hx' := (hr.step hd0 he trivial hs).inv.1
    have hcall := ha e (by simp)
    obtain ⟨h1, h0, h2⟩ := ih fun e he => ha e (List.mem_append_left _ he)
    obtain ⟨h2, h3⟩ := h2.resolve_right (by simp [hd0])
    have h4 : d'.held = 0 := ((step_held hx he hs).1 hcall).trans h1
    refine ⟨h4, ?_⟩
    rw [List.countP_append, List.countP_singleton]
    have hp := rank_pos d
    by_cases hn : d'.state = d.state
    · have := rank_step hx he hs hn (by simp [h2]) (fun _ _ => by simp [h2]) (fun _ => by simp [h2])
      refine ⟨?_, .inl ⟨hn.trans h2, ?_⟩⟩ <;>
      cases hm : e.moves d <;> cases hw : e.isNew <;> simp [hm, hw] at this ⊢ <;> omega
    · refine ⟨by cases hm : e.moves d <;> simp <;> omega, .inr ?_⟩
      have gone : d'.state = .disconnected → d'.destroyed = true := fun q => by
        cases hd : d'.destroyed with
        | true => rfl
        | false =>
          rcases hx'.alive hd with k | k
          · exact absurd h4 k
          · rw [(hx'.off q).2.2.2.2] at k; cases k
      cases step_left hx he hs hn with
      | connect clean q _ _ => rw [q] at hcall; cases hcall
      | refused _ _ q => exact gone q
      | answered _ _ q => rw [h2] at q; cases q
      | lost _ q => rw [h2] at q; cases q
      | resumed _ q => rw [h2] at q; cases q
      | disconnect q => rw [q] at hcall; cases hcall
      | ended _ _ _ _ q => exact gone q

/-- Without calls a connection that has been established goes on for good. -/
theorem Run.kept {c d : Conn} {es : List Event} {n : Nat} (r : Run c es n d) (h : Reachable (fun _ _ => True) c)
    (hst : c.state = .connected ∨ c.state = .reconnecting) (ha : ∀ e ∈ es, e.isCall = false) :
    d.state = .connected ∨ d.state = .reconnecting := by
  induction r with
  | nil => exact hst
  | @snoc es n d d' e r0 hd0 he hs ih =>
    have hx := (r0.reachable h).inv.1
    have hcall := ha e (by simp)
    have h2 := ih fun e he => ha e (List.mem_append_left _ he)
    by_cases hn : d'.state = d.state
    · rw [hn]; exact h2
    · cases step_left hx he hs hn with
      | connect clean q _ _ => rw [q] at hcall; cases hcall
      | refused _ q _ => have q := (hx.conn q).1; rcases h2 with h2 | h2 <;> rw [h2] at q <;> cases q
      | answered _ _ q => rcases h2 with h2 | h2 <;> rw [h2] at q <;> cases q
      | lost _ _ q => exact .inr q
      | resumed _ _ _ _ q => exact .inl q
      | disconnect q => rw [q] at hcall; cases hcall
      | ended _ q => rcases h2 with h2 | h2 <;> rw [h2] at q <;> cases q

/-- Play a history, counting its moves. -/
def follow (c : Conn) : List Event → Option (Nat × Conn)
  | [] => some (0, c)
  | e :: es =>
    if c.destroyed = false ∧ Enabled c e = true then
      match Client311.step c e with
      | .ok c' => (follow c' es).map fun r => (r.1 + (e.moves c).toNat, r.2)
      | .error _ => none
    else none

theorem Run.cons {c c' d : Conn} {e : Event} {es : List Event} {n : Nat} (hd : c.destroyed = false)
    (he : Enabled c e = true) (hs : Client311.step c e = .ok c') (r : Run c' es n d) :
    Run c (e :: es) (n + (e.moves c).toNat) d := by
  induction r with
  | nil =>
    have := Run.nil.snoc hd he hs
    cases hm : e.moves c <;> simpa [hm] using this
  | @snoc es n d d' f _ hd0 he0 hs0 ih =>
    have := ih.snoc hd0 he0 hs0
    cases hm : f.moves d <;> simp only [hm, Bool.false_eq_true, if_true, if_false] at this ⊢
    · exact this
    · rw [show n + 1 + (e.moves c).toNat = n + (e.moves c).toNat + 1 by omega]; exact this

theorem follow_run {c d : Conn} {es : List Event} {n : Nat} (h : follow c es = some (n, d)) : Run c es n d := by
  induction es generalizing c n with
  | nil => cases h; exact .nil
  | cons e es ih =>
    unfold follow at h
    split at h
    · next k =>
      split at h
      · next c' hs =>
        cases hf : follow c' es with
        | none => rw [hf] at h; cases h
        | some r =>
          rw [hf] at h
          cases h
          exact (ih hf).cons k.1 k.2 hs
      · cases h
    · cases h

theorem follow_any {c : Conn} {es : List Event} {n : Nat} {p : Conn → Bool}
    (h : ((follow c es).any fun r => r.1 = n ∧ p r.2 = true) = true) : ∃ d, Run c es n d ∧ p d = true := by
  cases hf : follow c es with
  | none => rw [hf] at h; cases h
  | some r =>
    rw [hf] at h
    simp only [Option.any_some, decide_eq_true_eq] at h
    exact ⟨r.2, follow_run (h.1 ▸ hf), h.2⟩

end Mqtt.Client311
