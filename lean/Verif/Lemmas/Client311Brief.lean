import Verif.Lemmas.Client311Link

/-! Requests of the 3.1.1 connection that are not retried: they wait nowhere but in an outgoing task. -/
namespace Mqtt.Client311

theorem retryable_false {k : Kind} : k.retryable = false ↔ k = .publish 0 ∨ k = .ping := by
  cases k <;> simp [Kind.retryable]

/-- Requests that are in a list. -/
def Conn.queued (c : Conn) : List Nat := c.pending ++ c.ongoing ++ c.busy.todo

theorem mem_queued {c : Conn} {u : Nat} : u ∈ c.queued ↔ u ∈ c.pending ∨ u ∈ c.ongoing ∨ u ∈ c.busy.todo := by
  simp only [Conn.queued, List.mem_append, or_assoc]

theorem queued_live {c : Conn} {u : Nat} (h : u ∈ c.queued) : u ∈ c.live := by
  rw [mem_queued] at h
  simp only [Conn.live, List.mem_append]
  rcases h with h | h | h
  · exact .inl (.inl (.inl h))
  · exact .inl (.inl (.inr h))
  · exact .inr h

structure Brief (c : Conn) : Prop where
  apart : ∀ u r, c.reqs.get u = some r → r.kind.retryable = false → u ∉ c.queued
  fresh : ∀ u r, c.reqs.get u = some r → r.kind.retryable = false → r.initiated = false

theorem Brief.init : Brief {} := ⟨by intro u r h; simp at h, by intro u r h; simp at h⟩

/-- What is in a list after an event has been in a list before, or is retried. -/
def Stays (c f : Conn) : Prop :=
  ∀ u ∈ f.queued, u ∈ c.queued ∨ ∃ r, f.reqs.get u = some r ∧ r.kind.retryable = true

theorem Stays.sub {c f : Conn} (h : ∀ u ∈ f.queued, u ∈ c.queued) : Stays c f := fun u hu => .inl (h u hu)

theorem Stays.same {c f : Conn} (h1 : f.pending = c.pending) (h2 : f.ongoing = c.ongoing) (h3 : f.busy = c.busy) :
    Stays c f := Stays.sub fun u hu => by simpa only [Conn.queued, h1, h2, h3] using hu

theorem Stays.calm {c f : Conn} (h1 : f.pending = c.pending) (h2 : f.ongoing = c.ongoing) (h3 : f.busy.todo = []) :
    Stays c f := Stays.sub fun u hu => by
  simp only [Conn.queued, h1, h2, h3, List.append_nil] at hu
  exact List.mem_append_left _ hu

theorem complete_queued {c : Conn} {u : Nat} {o : Outcome} : (c.complete u o).queued = c.queued := by
  cases h : c.reqs.get u with
  | some r => rw [complete_eq h]; rfl
  | none => simp [Conn.complete, Conn.change, Conn.remove, Conn.tell, h, Conn.queued]

theorem create_stays {c c' : Conn} {kind : Kind} {size : Nat} (h : c.create kind size = .ok c') : Stays c c' := by
  rcases create_cases h with ⟨e, _⟩ | ⟨e, _⟩ | ⟨r, _, ⟨_, e⟩ | ⟨_, _, hr, ⟨hn, e⟩ | ⟨_, n, _, hn, e⟩ | ⟨_, _, e⟩⟩⟩
  · cases e; exact Stays.same rfl rfl rfl
  · cases e; exact Stays.same rfl rfl rfl
  · cases e; exact Stays.same rfl rfl rfl
  · cases e
    intro u hu
    simp only [mem_queued, Conn.added, List.mem_append, List.mem_singleton] at hu ⊢
    rcases hu with (h | h) | h | h
    · exact .inl (.inl h)
    · subst h
      refine .inr ⟨_, AMap.get_set_same .., ?_⟩
      cases hk : kind.retryable with
      | true => exact hk
      | false => exact absurd (hr hk) hn
    · exact .inl (.inr (.inl h))
    · exact .inl (.inr (.inr h))
  · cases e; exact Stays.same rfl rfl rfl
  · cases e

theorem finish_stays {c c' : Conn} {id : Nat} {o : Outcome} (h : c.finish id o = .ok c') : Stays c c' := by
  rcases finish_cases h with ⟨_, e⟩ | ⟨u, ht, ⟨hm, e⟩ | ⟨_, _, e⟩⟩
  · cases e; exact Stays.same rfl rfl rfl
  · cases e
    refine Stays.sub fun v hv => ?_
    rw [← complete_queued (c := c) (u := u) (o := o)]
    simp only [mem_queued] at hv ⊢
    rcases hv with h | h | h
    · exact .inl (List.mem_filter.1 h).1
    · exact .inr (.inl (List.mem_filter.1 h).1)
    · exact .inr (.inr h)
  · cases e

theorem suback_stays {c c' : Conn} {chan id codes : Nat} (h : c.suback chan id codes = .ok c') : Stays c c' := by
  unfold Conn.suback at h
  split at h
  · cases h; exact Stays.same rfl rfl rfl
  · split at h
    · cases h
    · split at h
      · cases h
      · split at h
        · cases h; exact Stays.same rfl rfl rfl
        · exact finish_stays h

theorem connack_stays {c : Conn} {chan : Nat} {acc : Bool} : Stays c (c.connack chan acc) := by
  have key : ∀ f : Conn, f.pending = [] → f.ongoing = c.ongoing → f.busy = c.busy → Stays c f := by
    intro f h1 h2 h3
    refine Stays.sub fun u hu => ?_
    simp only [mem_queued, h1, h2, h3, List.not_mem_nil, false_or] at hu ⊢
    exact .inr hu
  unfold Conn.connack
  split
  · exact Stays.same rfl rfl rfl
  · split
    · simp only
      split
      · exact key _ rfl rfl rfl
      · exact key _ rfl rfl rfl
    · exact Stays.same rfl rfl rfl

theorem receive_stays {c c' : Conn} {chan : Nat} {p : Packet} (h : c.receive chan p = .ok c') : Stays c c' := by
  unfold Conn.receive at h
  split at h
  · cases h; exact Stays.same rfl rfl rfl
  · cases h; exact connack_stays
  · split at h
    · cases h; exact Stays.same rfl rfl rfl
    · split at h
      · cases h
        split
        · exact Stays.same rfl rfl rfl
        · exact Stays.same rfl rfl rfl
      · exact finish_stays (c := c.tell _) h
      · exact finish_stays (c := c.tell _) h
      · exact finish_stays (c := c.tell _) h
      · exact suback_stays (c := c.tell _) h
      · cases h; exact Stays.same rfl rfl rfl
      · cases h; exact Stays.same rfl rfl rfl
      · cases h; exact Stays.same rfl rfl rfl

theorem release_stays {c d c' : Conn} (hs : d.release = .ok c') (h : ∀ u ∈ d.queued, u ∈ c.queued) : Stays c c' := by
  rcases release_cases hs with ⟨rfl, _⟩ | ⟨rfl, _⟩
  · exact Stays.sub h
  · refine Stays.sub fun u hu => h u ?_
    have : u ∈ d.ongoing ∨ u ∈ d.busy.todo := by simpa [mem_queued, Conn.destroyFinal] using hu
    exact mem_queued.2 (.inr this)

theorem schedule_stays {c d c' : Conn} (hs : d.schedule = .ok c') (h : ∀ u ∈ d.queued, u ∈ c.queued) : Stays c c' := by
  unfold Conn.schedule at hs
  split at hs
  · cases hs
  · cases hs; exact Stays.sub h

theorem advance_stays {c c' : Conn} (hs : c.advance = .ok c') : Stays c c' := by
  have idle : ∀ d : Conn, d.pending = c.pending → d.ongoing = c.ongoing → d.busy.todo = [] → ∀ u ∈ d.queued, u ∈ c.queued := by
    intro d h1 h2 h3 u hu
    simp only [mem_queued, h1, h2, h3, List.not_mem_nil, or_false] at hu ⊢
    exact hu.elim .inl fun h => .inr (.inl h)
  unfold Conn.advance at hs
  split at hs
  · next all uid todo next hb =>
    cases hs
    refine Stays.sub fun u hu => ?_
    simp only [mem_queued, hb, Busy.todo] at hu ⊢
    rcases hu with h | h | h
    · exact .inl h
    · exact .inr (.inl h)
    · exact .inr (.inr (List.mem_cons_of_mem _ h))
  · next all next hb =>
    obtain ⟨rq, tb, tm, e, htm⟩ := removeAll_eq all c
    simp only at hs
    rw [e] at hs
    split at hs
    · cases hs; exact Stays.sub (idle _ rfl rfl rfl)
    · exact schedule_stays hs (idle _ rfl rfl rfl)
    · cases hs; exact Stays.sub (idle _ rfl rfl rfl)
    · cases hs; exact Stays.sub (idle _ rfl rfl rfl)
    · exact release_stays hs (idle _ rfl rfl rfl)
  · next hb =>
    split at hs
    · exact release_stays hs (idle _ rfl rfl rfl)
    · exact schedule_stays hs (idle _ rfl rfl rfl)
  · cases hs; exact Stays.same rfl rfl rfl

theorem shutdown_stays {c : Conn} : Stays c c.shutdown := by
  refine Stays.sub fun u hu => ?_
  simp only [mem_queued, Conn.shutdown, Busy.todo, List.not_mem_nil, false_or] at hu ⊢
  cases hc : c.clean with
  | true =>
    simp only [hc, if_true, List.not_mem_nil, false_or, List.mem_append] at hu
    exact hu.elim (fun h => .inr (.inl h)) .inl
  | false =>
    simp only [hc, Bool.false_eq_true, if_false, List.not_mem_nil, or_false, List.mem_append] at hu
    exact hu.elim .inl fun h => .inr (.inl h)

theorem Stays.step {c c' : Conn} {e : Event} (hs : step c e = .ok c') (hn : ∀ k result, e ≠ .run k result) :
    Stays c c' := by
  cases e with
  | create kind size => exact create_stays hs
  | connect clean =>
    cases hs
    unfold Conn.connect
    split
    · exact Stays.same rfl rfl rfl
    · refine Stays.sub fun u hu => ?_
      cases clean
      · simp only [mem_queued, Busy.todo, Bool.false_eq_true, if_false, List.not_mem_nil, or_false] at hu ⊢
        exact hu.elim .inl fun h => .inr (.inl h)
      · simp only [mem_queued, Busy.todo, if_true, List.not_mem_nil, false_or] at hu ⊢
        exact hu.elim (fun h => .inr (.inl h)) .inl
  | launch ok =>
    cases hs
    cases ok
    · exact Stays.calm rfl rfl rfl
    · exact Stays.calm rfl rfl rfl
  | advance => exact advance_stays hs
  | disconnect =>
    cases hs
    unfold Conn.disconnect
    split <;> exact Stays.same rfl rfl rfl
  | acquire => cases hs; exact Stays.same rfl rfl rfl
  | release => exact release_stays hs fun _ h => h
  | setup r =>
    cases hs
    cases r with
    | failed => exact shutdown_stays
    | refused => exact Stays.same rfl rfl rfl
    | unsent =>
      simp only [Conn.setup]
      split <;> exact Stays.same rfl rfl rfl
    | opened =>
      simp only [Conn.setup]
      split <;> exact Stays.same rfl rfl rfl
  | packet p =>
    simp only [Client311.step] at hs
    split at hs
    · cases hs
    · exact receive_stays hs
  | ping => exact create_stays hs
  | run k result => exact absurd rfl (hn k result)
  | cancel k =>
    simp only [Client311.step] at hs
    split at hs
    · cases hs; exact Stays.same rfl rfl rfl
    · next uid chan hk =>
      cases hs
      unfold Conn.cancelled
      split
      · exact Stays.same rfl rfl rfl
      · next r hr =>
        split
        · next hret =>
          rw [change_eq hr]
          intro u hu
          simp only [mem_queued, List.mem_append, List.mem_singleton] at hu ⊢
          rcases hu with (h | h) | h | h
          · exact .inl (.inl h)
          · subst h
            refine .inr ?_
            split
            · exact ⟨r, hr, hret⟩
            · exact ⟨_, AMap.get_set_same .., hret⟩
          · exact .inl (.inr (.inl h))
          · exact .inl (.inr (.inr h))
        · refine Stays.sub fun u hu => ?_
          rw [complete_queued] at hu
          exact hu
  | timeout uid =>
    simp only [Client311.step] at hs
    split at hs
    · cases hs
    · exact finish_stays hs
  | attempt ok =>
    simp only [Client311.step, Conn.attempt] at hs
    split at hs
    · split at hs
      · cases hs; exact Stays.same rfl rfl rfl
      · exact release_stays hs fun _ h => h
    · split at hs <;> cases hs <;> exact Stays.same rfl rfl rfl
  | disconnectTask => cases hs; exact Stays.same rfl rfl rfl
  | close => cases hs; exact Stays.same rfl rfl rfl
  | shutdown => cases hs; exact shutdown_stays

theorem Brief.step {c c' : Conn} {e : Event} (h : Brief c) (hc : Ctl c) (hh : Held c) (he : Enabled c e = true)
    (hs : step c e = .ok c') : Brief c' := by
  by_cases hn : ∀ k result, e ≠ .run k result
  · have hk := Keeps.step hc hh he hs hn
    have hst := Stays.step hs hn
    refine ⟨?_, ?_⟩
    · intro u r' hr hb hw
      rcases hst u hw with hw | ⟨r2, h2, h3⟩
      · rcases hk.req u r' hr with ⟨r, h0, _, h1, _⟩ | ⟨h1, _⟩
        · exact h.apart u r h0 (h1 ▸ hb) hw
        · obtain ⟨⟨done, _, hst⟩, _⟩ := hh
          have := hst.live_below (queued_live hw)
          omega
      · rw [hr] at h2; cases h2
        rw [hb] at h3; cases h3
    · intro u r' hr hb
      rcases hk.req u r' hr with ⟨r, h0, h4, h1, _⟩ | ⟨_, h1, _⟩
      · rw [← h4]; exact h.fresh u r h0 (h1 ▸ hb)
      · exact h1
  · cases e with
    | run k result =>
      simp only [Client311.step] at hs
      cases hk : c.tasks[k]? with
      | none => rw [hk] at hs; cases hs; exact h
      | some t =>
        obtain ⟨uid, chan⟩ := t
        rw [hk] at hs
        simp only [Except.ok.injEq] at hs
        subst hs
        simp only [Enabled, hk, Bool.and_eq_true, decide_eq_true_eq] at he
        obtain ⟨hb, hch, hmay⟩ := he
        unfold Conn.send
        cases hr : c.reqs.get uid with
        | none => simp only; exact ⟨h.apart, h.fresh⟩
        | some r =>
          rw [hr] at hmay
          have hgone : ∀ l o, Brief (({ c with tasks := c.tasks.eraseIdx k, log := l } : Conn).complete uid o) := by
            intro l o
            refine ⟨fun u s hu hb hw => ?_, fun u s hu hb => ?_⟩
            · rw [complete_queued] at hw
              rw [complete_eq (c := { c with tasks := c.tasks.eraseIdx k, log := l }) hr] at hu
              exact h.apart u s (get_del_sub hu) hb hw
            · rw [complete_eq (c := { c with tasks := c.tasks.eraseIdx k, log := l }) hr] at hu
              exact h.fresh u s (get_del_sub hu) hb
          simp only
          split
          · exact hgone c.log _
          · split
            · exact hgone c.log _
            · exact hgone _ _
          · next timer topics =>
            have hz : r.kind.retryable = true := by
              simp only at hmay
              cases hret : r.kind.retryable with
              | true => rfl
              | false =>
                rcases retryable_false.1 hret with e | e <;> rw [e] at hmay <;> simp [Kind.mayReturn] at hmay
            generalize (if r.kind.isSubscribe = true then topics else r.topics) = tp
            simp only [Conn.tell]
            rw [change_eq (AMap.get_set_same ..)]
            have key : ∀ u s, ((if r.size = 0 then c.reqs.set uid { r with initiated := true, topics := tp } else
                (c.reqs.set uid { r with initiated := true, topics := tp }).set uid
                  { r with initiated := true, topics := tp, incomplete := true, unacked := true })).get u = some s →
                s.kind.retryable = false → u ≠ uid ∧ c.reqs.get u = some s := by
              intro u s hu hb
              by_cases e : u = uid
              · subst e
                exfalso
                split at hu <;> rw [AMap.get_set_same] at hu <;> cases hu <;> (rw [show _ = _ from hz] at hb; cases hb)
              · refine ⟨e, ?_⟩
                split at hu
                · rwa [AMap.get_set, if_neg e] at hu
                · rwa [AMap.get_set, if_neg e, AMap.get_set, if_neg e] at hu
            refine ⟨fun u s hu hb hw => ?_, fun u s hu hb => ?_⟩
            · obtain ⟨h1, h2⟩ := key u s (by simpa using hu) hb
              refine h.apart u s h2 hb ?_
              simp only [mem_queued, List.mem_append, List.mem_singleton] at hw ⊢
              rcases hw with h | (h | h) | h
              · exact .inl h
              · exact .inr (.inl h)
              · exact absurd h h1
              · exact .inr (.inr h)
            · exact h.fresh u s (key u s (by simpa using hu) hb).2 hb
    | _ => exact absurd (by intro k r h; cases h) hn

variable {allowed : Conn → Event → Prop} {c : Conn}

theorem Reachable.brief (h : Reachable allowed c) : Brief c := by
  induction h with
  | init => exact Brief.init
  | step h0 _ he _ hs ih => exact ih.step h0.inv.1 h0.inv.2 he hs

/-- The kind of a request that has been accepted. -/
theorem Reachable.kind_of (h : Reachable allowed c) {u i : Nat} {k : Kind} {s : Nat} (ha : .accepted u i k s ∈ c.log)
    {i' : Nat} {k' : Kind} {s' : Nat} (hb : .accepted u i' k' s' ∈ c.log) : k = k' := by
  obtain ⟨⟨done, e, hs⟩, _⟩ := h.inv.2
  exact (hs.uniq _ _ _ _ _ _ _ ha hb).2.1

/-- A request that is not completed and not retried is in an outgoing task and has not been sent. -/
theorem Reachable.brief_task (h : Reachable allowed c) {u i : Nat} {k : Kind} {s : Nat} (ho : Outstanding c.log u i k s)
    (hk : k.retryable = false) : (∃ n, (u, n) ∈ c.tasks) ∧ ∀ n, ¬ SentOn c.log u n := by
  obtain ⟨hl, _, r, hr, _, e, _⟩ := h.outstanding ho
  have hb := h.brief.apart u r hr (by rw [e]; exact hk)
  have hf := h.brief.fresh u r hr (by rw [e]; exact hk)
  refine ⟨?_, ?_⟩
  · simp only [mem_queued, not_or] at hb
    simp only [Conn.live, List.mem_append] at hl
    rcases hl with ((h | h) | h) | h
    · exact absurd h hb.1
    · exact absurd h hb.2.1
    · obtain ⟨⟨v, n⟩, h1, h2⟩ := List.mem_map.1 h
      have h2 : v = u := h2
      exact ⟨n, h2 ▸ h1⟩
    · exact absurd h hb.2.2
  · intro n hn
    have := (h.sends.begun u r hr).2 ⟨n, hn⟩
    rw [hf] at this; cases this

/-- A request that is not retried is sent at most once. -/
theorem Reachable.brief_once (h : Reachable allowed c) {pre post : List Trace} {u n i s : Nat} {k : Kind} {d : Bool}
    (ha : .accepted u i k s ∈ c.log) (hk : k.retryable = false) (e : c.log = pre ++ .sent u n d :: post) :
    ∀ m, ¬ SentOn pre u m := by
  have key : ∀ c0, Reachable allowed c0 → (∀ i' k' s', Trace.accepted u i' k' s' ∈ c0.log → k' = k) → ∀ post,
      c0.log = pre ++ .sent u n d :: post → ∀ m, ¬ SentOn pre u m := by
    intro c0 h
    induction h with
    | init => intro _ post e; simp at e
    | @step c0 c1 ev h0 hd he _ hs ih =>
      intro hka post e
      rcases step_log hs with ⟨l, e1, hl⟩ | ⟨j, result, uid, chan, r, l, rfl, hj, hr, e1, hl⟩
      · have hka : ∀ i' k' s', Trace.accepted u i' k' s' ∈ c0.log → k' = k := fun i' k' s' h =>
          hka i' k' s' (by rw [e1]; exact List.mem_append_left _ h)
        rw [e1] at e
        obtain ⟨post', e2⟩ := split_old e (fun ht => by have := hl _ ht; cases this)
        exact ih hka post' e2
      · have hka : ∀ i' k' s', Trace.accepted u i' k' s' ∈ c0.log → k' = k := fun i' k' s' h =>
          hka i' k' s' (by rw [e1]; exact List.mem_append_left _ h)
        rw [e1] at e
        rcases split_new e (fun ht => by have := hl _ ht; cases this) with ⟨e2, e3⟩ | ⟨post', e2⟩
        · cases e3
          rw [e2]
          intro m hm
          have hin := (h0.sends.begun u r hr).2 ⟨m, hm⟩
          obtain ⟨⟨done, _, hst⟩, _⟩ := h0.inv.2
          have := h0.brief.fresh u r hr (by rw [hka _ _ _ (hst.told u r hr)]; exact hk)
          rw [hin] at this; cases this
        · exact ih hka post' e2
  exact key c h (fun i' k' s' hb => h.kind_of hb ha) post e

end Mqtt.Client311
