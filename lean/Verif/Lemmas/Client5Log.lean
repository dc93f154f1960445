import Verif.Lemmas.Client5Held

/-!
What the moves of the MQTT 5 client append to the log.
-/
namespace Mqtt.Client5

open Mqtt.V5

theorem pending_append (l new : List Effect) : pending (l ++ new) = new.foldl pendingOne (pending l) := by
  simp [pending]

/-- The log only grows; numbers of operations are given out in order; new submissions get the next
number. -/
theorem move_log {cfg : Config} {c c' : Client} (m : Move cfg c c') :
    ∃ new, c'.ops.log = c.ops.log ++ new ∧ c.ops.nextUid ≤ c'.ops.nextUid ∧
      (∀ u p, .submitted u p ∈ new → u = c.ops.nextUid ∧ c.ops.nextUid < c'.ops.nextUid) ∧
      ∀ u p, .submitted u p ∉ new.tail := by
  have same : ∀ {s : OpState}, s.log = c.ops.log → s.nextUid = c.ops.nextUid →
      ∃ new, s.log = c.ops.log ++ new ∧ c.ops.nextUid ≤ s.nextUid ∧
      (∀ u p, .submitted u p ∈ new → u = c.ops.nextUid ∧ c.ops.nextUid < s.nextUid) ∧
      ∀ u p, .submitted u p ∉ new.tail :=
    fun h1 h2 => ⟨[], by simp [h1], by omega, by simp, by simp⟩
  cases m with
  | control k hk => exact same rfl rfl
  | accept p t hp hs hst =>
    refine ⟨[_], rfl, by simp [OpState.accept], ?_, by simp⟩
    simp [OpState.accept, OpState.newOp]
  | reject p e hp =>
    refine ⟨_, rfl, by simp [OpState.reject], ?_, by simp⟩
    simp [OpState.reject]
  | push p hp hst => exact ⟨[], by simp [OpState.pushFront], by simp [OpState.pushFront], by simp, by simp⟩
  | publish v a hst =>
    obtain ⟨s1, ctl, hs, hl, hx⟩ := onPublish_queue c.ops v a
    rcases hx with hx | hx
    · exact ⟨_, by rw [hx]; exact hl, by rw [hx, hs.nextUid]; exact Nat.le_refl _, by simp, by simp⟩
    · exact ⟨[.delivered v ctl, .pubackQueued s1.nextUid v.packetId],
        by rw [hx]; simp [OpState.queuePuback, hl], by rw [hx]; simp [OpState.queuePuback, hs.nextUid], by simp, by simp⟩
  | invoke ctl hst =>
    rcases invoke_queue c.ops ctl with ⟨id, s1, _, hs, hl, _, _, _, hx⟩ | ⟨_, hs, hl, _⟩
    · exact ⟨[.invoked ctl (some id), .pubackQueued s1.nextUid id],
        by rw [hx]; simp [OpState.queuePuback, hl], by rw [hx]; simp [OpState.queuePuback, hs.nextUid], by simp, by simp⟩
    · exact ⟨_, hl, by rw [hs.nextUid]; exact Nat.le_refl _, by simp, by simp⟩
  | token id hst => exact ⟨[_], rfl, Nat.le_refl _, by simp, by simp⟩
  | invalid op rest e hq he => exact ⟨[_], rfl, Nat.le_refl _, by simp, by simp⟩
  | start op rest s ok hq hc he hst hs =>
    rcases setCurrent_cases hs with ⟨_, p, n, enc, rfl, _⟩ | ⟨_, op', n, enc, rfl, hb, _⟩
    · exact ⟨[_], rfl, Nat.le_refl _, by simp, by simp⟩
    · exact ⟨[_], rfl, Nat.le_refl _, by simp, by simp⟩
  | encode op buf buf' enc r hc he => exact same rfl rfl
  | finish op now s hc hsteps hs =>
    obtain ⟨_, ⟨_, _, rfl⟩ | ⟨_, rfl⟩⟩ := finish_cases hs
    · exact ⟨[_], rfl, Nat.le_refl _, by simp, by simp⟩
    · exact ⟨[_], rfl, Nat.le_refl _, by simp, by simp⟩
  | write data => exact ⟨[_], rfl, Nat.le_refl _, by simp, by simp⟩
  | pinged uid => exact ⟨[_], rfl, Nat.le_refl _, by simp, by simp⟩
  | unwrite => exact same rfl rfl
  | written e =>
    rw [completeAll_eq]
    exact ⟨_, rfl, Nat.le_refl _, by simp [completions], fun u p h => by have := List.mem_of_mem_tail h; simp [completions] at this⟩
  | ack id uid op rest e a ht hu => exact ⟨[_], rfl, Nat.le_refl _, by simp, by simp⟩
  | timeout op rest hu ht => exact ⟨[_], rfl, Nat.le_refl _, by simp, by simp⟩
  | forget uid => exact same rfl rfl
  | fresh hq => exact same rfl rfl
  | disconnection e st hst =>
    exact ⟨_, onDisconnection_log cfg c.ops, by simp, by simp [completions], fun u p h => by have := List.mem_of_mem_tail h; simp [completions] at this⟩
  | connection settings now hst =>
    simp only [Client.toConnected]
    exact ⟨_, onConnection_log cfg settings c.ops, by simp, by simp [completions], fun u p h => by have := List.mem_of_mem_tail h; simp [completions] at this⟩
  | reset hst =>
    simp only [Client.toStopped]
    exact ⟨_, resetAll_log c.ops .userStop, by simp, by simp [completions], fun u p h => by have := List.mem_of_mem_tail h; simp [completions] at this⟩
  | terminate hst hd =>
    simp only [Client.toTerminated]
    exact ⟨_, resetAll_log c.ops .terminated, by simp, by simp [completions], fun u p h => by have := List.mem_of_mem_tail h; simp [completions] at this⟩

theorem submitted_lt {cfg : Config} {c : Client} (h : Reachable cfg c) :
    ∀ u p, .submitted u p ∈ c.ops.log → u < c.ops.nextUid := by
  refine reachable_inv (P := fun c => ∀ u p, .submitted u p ∈ c.ops.log → u < c.ops.nextUid) ?_ ?_ h
  · simp [Client.new]
  · intro c c' h m u p hu
    obtain ⟨new, h1, h2, h3, _⟩ := move_log m
    rw [h1, List.mem_append] at hu
    rcases hu with hu | hu
    · have := h u p hu; omega
    · have := h3 u p hu; omega

/-- Every number stands for one submission, and completions come after it. -/
theorem submitted_first {cfg : Config} {c : Client} (h : Reachable cfg c) :
    (∀ u p q, .submitted u p ∈ c.ops.log → .submitted u q ∈ c.ops.log → p = q) ∧
    ∀ u p, (u, p) ∈ pending c.ops.log → u ∉ c.ops.log.filterMap Effect.gone ∨ ∃ q, .dropped u q ∈ c.ops.log := by
  refine (reachable_inv (P := fun c => HeldInv c ∧ (∀ u p, .submitted u p ∈ c.ops.log → u < c.ops.nextUid) ∧
    (∀ u p q, .submitted u p ∈ c.ops.log → .submitted u q ∈ c.ops.log → p = q) ∧
    ∀ u p, (u, p) ∈ pending c.ops.log → u ∉ c.ops.log.filterMap Effect.gone ∨ ∃ q, .dropped u q ∈ c.ops.log) ?_ ?_ h).2.2
  · exact ⟨held_new cfg, by simp [Client.new], by simp [Client.new], by simp [Client.new, pending]⟩
  · rintro c c' ⟨hh, h, h', h''⟩ m
    obtain ⟨new, h1, h2, h3, h4⟩ := move_log m
    have hlt : ∀ u, u ∈ c.ops.log.filterMap Effect.gone → u < c.ops.nextUid := by
      intro u hu
      have h5 := hh.once u
      have h6 := List.count_pos_iff.2 hu
      unfold places born at h5
      split at h5
      · assumption
      · omega
    refine ⟨held_move hh m, ?_, ?_, ?_⟩
    · intro u p hu
      rw [h1, List.mem_append] at hu
      rcases hu with hu | hu
      · have := h u p hu; omega
      · have := h3 u p hu; omega
    · intro u p q hp hq
      rw [h1, List.mem_append] at hp hq
      rcases hp with hp | hp <;> rcases hq with hq | hq
      · exact h' u p q hp hq
      · have := h u p hp; have := h3 u q hq; omega
      · have := h u q hq; have := h3 u p hp; omega
      · cases new with
        | nil => cases hp
        | cons e new =>
          rcases List.mem_cons.1 hp with hp | hp
          · rcases List.mem_cons.1 hq with hq | hq
            · rw [← hp] at hq; cases hq; rfl
            · exact absurd hq (h4 u q)
          · exact absurd hp (h4 u p)
    · intro u p hp
      rw [h1, pending_append] at hp
      by_cases hdrop : ∃ q, .dropped u q ∈ c'.ops.log
      · exact .inr hdrop
      left
      rw [h1, List.filterMap_append, List.mem_append]
      have hnodrop : ∀ q, .dropped u q ∉ new := fun q hq => hdrop ⟨q, by rw [h1]; exact List.mem_append_right _ hq⟩
      -- effects without submission
      have key : ∀ (l : List Effect) (t : List (Nat × Outgoing)), (∀ u p, .submitted u p ∉ l) →
          (∀ q, .dropped u q ∉ l) → (u, p) ∈ l.foldl pendingOne t → (u, p) ∈ t ∧ u ∉ l.filterMap Effect.gone := by
        intro l
        induction l with
        | nil => intro t _ _ ht; exact ⟨ht, by simp⟩
        | cons e l ih =>
          intro t hn hd ht
          obtain ⟨ha, hb⟩ := ih _ (fun u p hx => hn u p (List.mem_cons_of_mem _ hx))
            (fun q hx => hd q (List.mem_cons_of_mem _ hx)) ht
          cases e with
          | submitted v q => exact absurd (List.mem_cons_self ..) (hn v q)
          | completed v q e a =>
            simp only [pendingOne, List.mem_filter, bne_iff_ne, ne_eq] at ha
            refine ⟨ha.1, ?_⟩
            rw [List.filterMap_cons]
            simp only [Effect.gone, List.mem_cons, not_or]
            exact ⟨ha.2, hb⟩
          | dropped v q =>
            refine ⟨ha, ?_⟩
            rw [List.filterMap_cons]
            simp only [Effect.gone, List.mem_cons, not_or]
            exact ⟨fun hx => hd q (by rw [hx]; exact List.mem_cons_self ..), hb⟩
          | _ => exact ⟨ha, hb⟩
      have old : (u, p) ∈ pending c.ops.log → u ∉ c.ops.log.filterMap Effect.gone := fun hx => by
        rcases h'' u p hx with h5 | ⟨q, h5⟩
        · exact h5
        · exact absurd ⟨q, by rw [h1]; exact List.mem_append_left _ h5⟩ hdrop
      cases new with
      | nil =>
        simp only [List.foldl_nil, List.filterMap_nil, List.not_mem_nil, or_false] at hp ⊢
        exact old hp
      | cons e new =>
        obtain ⟨ha, hb⟩ := key new _ h4 (fun q hx => hnodrop q (List.mem_cons_of_mem _ hx)) hp
        have hone : (u, p) ∈ pending c.ops.log ∧ u ∉ [e].filterMap Effect.gone ∨
            u = c.ops.nextUid ∧ u ∉ [e].filterMap Effect.gone := by
          cases e with
          | submitted v q =>
            simp only [pendingOne, List.mem_append, List.mem_singleton, Prod.mk.injEq] at ha
            rcases ha with ha | ⟨rfl, rfl⟩
            · exact .inl ⟨ha, by simp [Effect.gone]⟩
            · exact .inr ⟨(h3 u p (List.mem_cons_self ..)).1, by simp [Effect.gone]⟩
          | completed v q e a =>
            simp only [pendingOne, List.mem_filter, bne_iff_ne, ne_eq] at ha
            exact .inl ⟨ha.1, by simp [Effect.gone, ha.2]⟩
          | dropped v q =>
            refine .inl ⟨ha, ?_⟩
            simp only [Effect.gone, List.filterMap_cons, List.filterMap_nil, List.mem_singleton]
            intro hx
            exact hnodrop q (by rw [hx]; exact List.mem_cons_self ..)
          | _ => exact .inl ⟨ha, by simp [Effect.gone]⟩
        have hsplit : (e :: new).filterMap Effect.gone = [e].filterMap Effect.gone ++ new.filterMap Effect.gone := by
          rw [← List.filterMap_append]; rfl
        rw [hsplit, List.mem_append]
        rintro (hx | hx | hx)
        · rcases hone with ho | ho
          · exact old ho.1 hx
          · have := hlt u hx; omega
        · rcases hone with ho | ho <;> exact ho.2 hx
        · exact hb hx

theorem submitted_unique {cfg : Config} {c : Client} (h : Reachable cfg c) :
    ∀ u p q, .submitted u p ∈ c.ops.log → .submitted u q ∈ c.ops.log → p = q := (submitted_first h).1

end Mqtt.Client5
