import Verif.Lemmas.Client311Sends

/-! What the invariants of the 3.1.1 connection say about its log. -/
namespace Mqtt.Client311
variable {allowed : Conn → Event → Prop} {c : Conn}

/-- A request that is not completed is in a list and in the table. -/
theorem Reachable.outstanding (h : Reachable allowed c) {u i : Nat} {k : Kind} {s : Nat}
    (ho : Outstanding c.log u i k s) :
    u ∈ c.live ∧ c.table.get i = some u ∧ ∃ r, c.reqs.get u = some r ∧ r.id = i ∧ r.kind = k ∧ r.size = s := by
  obtain ⟨⟨done, e, hs⟩, _⟩ := h.inv.2
  have hlt : u < c.nextUid := (hs.acc u).1 ⟨i, k, s, ho.1⟩
  have hl : u ∈ c.live := by
    by_cases hl : u ∈ c.live
    · exact hl
    · have := hs.once u
      rw [ho.2, if_pos ⟨hlt, hl⟩] at this
      cases this
  obtain ⟨r, hr⟩ := hs.live_isSome hl
  obtain ⟨e1, e2, e3⟩ := hs.uniq _ _ _ _ _ _ _ (hs.told u r hr) ho.1
  exact ⟨hl, (hs.tab i u).2 ⟨r, hr, e1⟩, r, hr, e1, e2, e3⟩

/-- And the other way round. -/
theorem Reachable.live_outstanding (h : Reachable allowed c) {u : Nat} (hl : u ∈ c.live) :
    ∃ r, c.reqs.get u = some r ∧ Outstanding c.log u r.id r.kind r.size := by
  obtain ⟨⟨done, e, hs⟩, _⟩ := h.inv.2
  obtain ⟨r, hr⟩ := hs.live_isSome hl
  refine ⟨r, hr, hs.told u r hr, ?_⟩
  rw [hs.once, if_neg fun h => h.2 hl]

/-- A request in the table is outstanding when nothing is being cancelled. -/
theorem Reachable.table_outstanding (h : Reachable allowed c) (hb : c.busy = .idle) {u i : Nat}
    (ht : c.table.get i = some u) : ∃ r, c.reqs.get u = some r ∧ r.id = i ∧ Outstanding c.log u i r.kind r.size := by
  have hs := h.inv.2.idleStore hb
  obtain ⟨r, hr, e⟩ := (hs.tab i u).1 ht
  have hl : u ∈ c.live := by
    have := (hs.places u).1 (by rw [hr]; rfl)
    simpa using this
  obtain ⟨r2, hr2, ho⟩ := h.live_outstanding hl
  rw [hr] at hr2
  cases hr2
  rw [e] at ho
  exact ⟨r, hr, e, ho⟩

theorem Held.live_nodup (h : Held c) : c.live.Nodup := by
  obtain ⟨⟨done, e, hs⟩, _⟩ := h
  exact List.Nodup.sublist (List.sublist_append_left _ _) hs.nodup

/-- A request waits for an acknowledgement if and only if it has been sent on the channel and is not completed. -/
theorem Reachable.ongoing_iff (h : Reachable allowed c) {n : Nat} (hn : c.chan = some n) {u i : Nat} {k : Kind} {s : Nat}
    (ho : Outstanding c.log u i k s) : u ∈ c.ongoing ↔ SentOn c.log u n := by
  constructor
  · intro hu
    obtain ⟨m, hm, hs⟩ := h.sends.on u hu
    rw [hn] at hm
    cases hm
    exact hs
  · intro hs
    exact h.sends.back u n hs (h.outstanding ho).1 hn

/-- A request whose task is scheduled has not been sent on the channel. -/
theorem Reachable.task_unsent (h : Reachable allowed c) {n : Nat} (hn : c.chan = some n) {u : Nat}
    (hu : u ∈ c.tasks.map (·.1)) : ¬ SentOn c.log u n := by
  intro hs
  have hl : u ∈ c.live := by simp only [Conn.live, List.mem_append]; exact .inl (.inr hu)
  have ho := h.sends.back u n hs hl hn
  have hnd := h.inv.2.live_nodup
  simp only [Conn.live] at hnd
  have hnd2 : ((c.pending ++ c.ongoing) ++ c.tasks.map (·.1)).Nodup :=
    List.Nodup.sublist (List.sublist_append_left _ _) hnd
  exact (List.nodup_append.1 hnd2).2.2 u (List.mem_append_right _ ho) u hu rfl

/-- The connection after a list of events; it stops at a fault and at an event that cannot happen or is not allowed. -/
def playIf (allowed : Conn → Event → Bool) (c : Conn) : List Event → Conn
  | [] => c
  | e :: es =>
    if c.destroyed = false ∧ Enabled c e = true ∧ allowed c e = true then
      match step c e with
      | .ok c' => playIf allowed c' es
      | .error _ => c
    else c

/-- The connection after a list of events. -/
def after (es : List Event) : Conn := playIf (fun _ _ => true) {} es

theorem reachable_playIf {ok : Conn → Event → Bool} (es : List Event)
    (h : Reachable (fun c e => ok c e = true) c) : Reachable (fun c e => ok c e = true) (playIf ok c es) := by
  induction es generalizing c with
  | nil => exact h
  | cons e es ih =>
    unfold playIf
    split
    · next hc =>
      split
      · next c' hs => exact ih (.step h hc.1 hc.2.1 hc.2.2 hs)
      · exact h
    · exact h

theorem Reachable.mono {allowed' : Conn → Event → Prop} (h : Reachable allowed c)
    (hi : ∀ c e, allowed c e → allowed' c e) : Reachable allowed' c := by
  induction h with
  | init => exact .init
  | step _ hd he ha hs ih => exact .step ih hd he (hi _ _ ha) hs

theorem reachable_after (es : List Event) : Reachable (fun _ _ => True) (after es) :=
  (reachable_playIf es .init).mono fun _ _ _ => trivial

end Mqtt.Client311
