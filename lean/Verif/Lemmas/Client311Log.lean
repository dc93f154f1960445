import Verif.Lemmas.Client311Fault

/-! What an event of the 3.1.1 connection adds to the log. -/
namespace Mqtt.Client311

/-- A request is sent. -/
def isSend : Trace → Bool
  | .sent .. => true
  | _ => false

/-- The log grows, and no request is sent. -/
def Calm (c c' : Conn) : Prop := ∃ l, c'.log = c.log ++ l ∧ ∀ t ∈ l, isSend t = false

theorem Calm.same {c c' : Conn} (h : c'.log = c.log) : Calm c c' := ⟨[], by simp [h], by simp⟩

theorem Calm.one {c c' : Conn} {t : Trace} (h : c'.log = c.log ++ [t]) (ht : isSend t = false) : Calm c c' :=
  ⟨[t], h, by simpa using ht⟩

theorem Calm.trans {a b c : Conn} (h1 : Calm a b) (h2 : Calm b c) : Calm a c := by
  obtain ⟨l, e, hl⟩ := h1
  obtain ⟨m, e2, hm⟩ := h2
  refine ⟨l ++ m, by rw [e2, e, List.append_assoc], ?_⟩
  intro t ht
  rcases List.mem_append.1 ht with h | h
  · exact hl t h
  · exact hm t h

theorem Calm.after {a b c : Conn} (h2 : Calm b c) (h1 : Calm a b) : Calm a c := h1.trans h2

theorem complete_log {c : Conn} {u : Nat} {o : Outcome} : (c.complete u o).log = c.log ++ [.completed u o] := by
  cases hr : c.reqs.get u with
  | some r => rw [complete_eq hr]
  | none => simp [Conn.complete, Conn.change, Conn.remove, Conn.tell, hr]

theorem change_log {c : Conn} {u : Nat} {a b : Bool} : (c.change u a b).log = c.log := by
  cases hr : c.reqs.get u with
  | some r => rw [change_eq hr]
  | none => simp [Conn.change, hr]

theorem create_calm {c c' : Conn} {kind : Kind} {size : Nat} (h : c.create kind size = .ok c') : Calm c c' := by
  rcases create_cases h with ⟨e, _⟩ | ⟨e, _⟩ | ⟨r, _, ⟨_, e⟩ | ⟨_, _, _, ⟨_, e⟩ | ⟨_, _, _, _, e⟩ | ⟨_, _, e⟩⟩⟩ <;>
    cases e <;> exact Calm.one rfl rfl

theorem finish_calm {c c' : Conn} {id : Nat} {o : Outcome} (h : c.finish id o = .ok c') : Calm c c' := by
  rcases finish_cases h with ⟨_, e⟩ | ⟨u, _, ⟨_, e⟩ | ⟨_, _, e⟩⟩
  · cases e; exact Calm.same rfl
  · cases e; exact Calm.one complete_log rfl
  · cases e

theorem suback_calm {c c' : Conn} {chan id codes : Nat} (h : c.suback chan id codes = .ok c') : Calm c c' := by
  unfold Conn.suback at h
  split at h
  · cases h; exact Calm.same rfl
  · split at h
    · cases h
    · split at h
      · cases h
      · split at h
        · cases h; exact Calm.one rfl rfl
        · exact finish_calm h

theorem receive_calm {c c' : Conn} {chan : Nat} {p : Packet} (h : c.receive chan p = .ok c') : Calm c c' := by
  have t1 : ∀ t, isSend t = false → Calm c (c.tell t) := fun t ht => Calm.one rfl ht
  unfold Conn.receive at h
  split at h
  · cases h; exact t1 _ rfl
  · cases h
    unfold Conn.connack
    split
    · exact t1 _ rfl
    · split
      · simp only
        split
        · exact ⟨[_, _], by simp only [Conn.tell, List.append_assoc]; rfl, by simp [isSend]⟩
        · exact ⟨[_, _], by simp only [List.append_assoc]; rfl, by simp [isSend]⟩
      · exact ⟨[_, _], rfl, by simp [isSend]⟩
  · split at h
    · cases h; exact Calm.one rfl rfl
    · split at h
      · cases h
        split
        · exact Calm.trans (b := c.tell _) (t1 (.processed chan _) rfl) (Calm.one rfl rfl)
        · exact t1 _ rfl
      · exact (finish_calm h).after (t1 _ rfl)
      · exact (finish_calm h).after (t1 _ rfl)
      · exact (finish_calm h).after (t1 _ rfl)
      · exact (suback_calm h).after (t1 _ rfl)
      · cases h; exact (t1 _ rfl).trans (Calm.one rfl rfl)
      · cases h; exact (t1 _ rfl).trans (Calm.one rfl rfl)
      · cases h; exact Calm.one rfl rfl

theorem release_calm {c c' : Conn} (h : c.release = .ok c') : Calm c c' := by
  rcases release_cases h with ⟨rfl, _⟩ | ⟨rfl, _⟩
  · exact Calm.same rfl
  · exact ⟨c.pending.map (.completed · .destroyed) ++ [.destroyed], by simp [Conn.destroyFinal], by
      intro t ht
      simp only [List.mem_append, List.mem_map, List.mem_singleton] at ht
      rcases ht with ⟨_, _, e⟩ | e <;> cases e <;> rfl⟩

theorem schedule_calm {c c' : Conn} (h : c.schedule = .ok c') : Calm c c' := by
  unfold Conn.schedule at h
  split at h
  · cases h
  · cases h; exact Calm.same rfl

theorem finishDisconnect_calm {c c' : Conn} {prev : State} (h : c.finishDisconnect prev = .ok c') : Calm c c' := by
  unfold Conn.finishDisconnect at h
  refine Calm.trans ?_ (release_calm h)
  refine ⟨_, rfl, ?_⟩
  intro t ht
  split at ht <;> simp at ht <;> subst ht <;> rfl

theorem advance_calm {c c' : Conn} (h : c.advance = .ok c') : Calm c c' := by
  unfold Conn.advance at h
  split at h
  · cases h; exact Calm.one rfl rfl
  · next all next hb =>
    obtain ⟨rq, tb, tm, e, htm⟩ := removeAll_eq all c
    simp only at h
    rw [e] at h
    split at h
    · cases h; exact Calm.same rfl
    · exact (schedule_calm h).after (Calm.same rfl)
    · cases h; exact Calm.one rfl rfl
    · cases h; exact Calm.same rfl
    · exact (finishDisconnect_calm h).after (Calm.same rfl)
  · split at h
    · exact finishDisconnect_calm h
    · exact (schedule_calm h).after (Calm.same rfl)
  · cases h; exact Calm.same rfl

/-- Only an outgoing task that is run sends a request, and only one. -/
theorem step_log {c c' : Conn} {e : Event} (h : step c e = .ok c') :
    Calm c c' ∨ ∃ k result uid chan r l, e = .run k result ∧ c.tasks[k]? = some (uid, chan) ∧
      c.reqs.get uid = some r ∧ c'.log = c.log ++ .sent uid chan r.initiated :: l ∧ ∀ t ∈ l, isSend t = false := by
  cases e with
  | create kind size => exact .inl (create_calm h)
  | connect clean =>
    cases h
    refine .inl ?_
    unfold Conn.connect
    split
    · exact Calm.one rfl rfl
    · exact Calm.same rfl
  | launch ok => cases h; refine .inl ?_; cases ok <;> exact Calm.one rfl rfl
  | advance => exact .inl (advance_calm h)
  | disconnect => cases h; refine .inl (Calm.same ?_); unfold Conn.disconnect; split <;> rfl
  | acquire => cases h; exact .inl (Calm.same rfl)
  | release => exact .inl ((release_calm h).after (Calm.same rfl))
  | setup r =>
    cases h
    refine .inl ?_
    cases r with
    | failed => exact Calm.same rfl
    | refused => exact Calm.same rfl
    | unsent =>
      simp only [Conn.setup]
      split
      · exact Calm.same rfl
      · exact Calm.one rfl rfl
    | opened =>
      simp only [Conn.setup]
      split
      · exact Calm.same rfl
      · exact Calm.one rfl rfl
  | packet p =>
    simp only [Client311.step] at h
    split at h
    · cases h
    · exact .inl (receive_calm h)
  | ping => exact .inl (create_calm h)
  | run k result =>
    simp only [Client311.step] at h
    split at h
    · cases h; exact .inl (Calm.same rfl)
    · next uid chan hk =>
      cases h
      unfold Conn.send
      split
      · exact .inl (Calm.same rfl)
      · next r hr =>
        split
        · exact .inl (Calm.one complete_log rfl)
        · simp only
          split
          · exact .inl (Calm.one complete_log rfl)
          · exact .inr ⟨k, .complete, uid, chan, r, [.completed uid .success], rfl, hk, hr, by
              rw [complete_log]; simp [Conn.tell], by simp [isSend]⟩
        · next timer topics =>
          exact .inr ⟨k, .ongoing timer topics, uid, chan, r, [], rfl, hk, hr, change_log, by simp⟩
  | cancel k =>
    simp only [Client311.step] at h
    split at h
    · cases h; exact .inl (Calm.same rfl)
    · cases h
      refine .inl ?_
      unfold Conn.cancelled
      split
      · exact Calm.same rfl
      · split
        · exact Calm.same change_log
        · exact Calm.one complete_log rfl
  | timeout uid =>
    simp only [Client311.step] at h
    split at h
    · cases h
    · exact .inl (finish_calm h)
  | attempt ok =>
    refine .inl ?_
    simp only [Client311.step, Conn.attempt] at h
    split at h
    · split at h
      · cases h; exact Calm.same rfl
      · exact (release_calm h).after (Calm.one rfl rfl)
    · split at h <;> cases h <;> exact Calm.same rfl
  | disconnectTask => cases h; exact .inl (Calm.same rfl)
  | close => cases h; exact .inl (Calm.same rfl)
  | shutdown => cases h; exact .inl (Calm.same rfl)

end Mqtt.Client311
