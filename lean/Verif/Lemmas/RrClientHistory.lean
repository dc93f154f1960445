import Verif.Lemmas.RrClientInv

/-! Concrete histories of the request-response client. -/
namespace Mqtt.RrClient

/-- Events with their times. -/
abbrev History := List (Nat × Event)

/-- The client after a history. -/
def play (cfg : Config) : Client → History → Option Client
  | c, [] => some c
  | c, (now, e) :: es =>
    match stepAt cfg { c with clock := now } now e with
    | .error _ => none
    | .ok c => play cfg c es

/-- `Enabled` for the concrete histories below. -/
def enabled (c : Client) (now : Nat) : Event → Bool
  | .submit _ | .openStream _ | .release => c.held
  | .activate id | .close id =>
    match c.ops.get id with
    | some op => op.held && (match op.body with
      | .stream _ => true
      | .request _ => false)
    | none => false
  | .task env k =>
    match c.tasks[k]? with
    | some t => (t == .initialize || !c.tasks.contains .initialize) && env.aborted.isEmpty
    | none => false
  | .service _ expired =>
    c.scheduled != 0 && decide (c.scheduled ≤ now) && decide (expired.length ≤ 1) &&
      expired == c.timeouts.filter fun i => decide (c.timeoutOf i ≤ now)
  | .finished _ f a _ _ => c.adapter && decide (Rr.outstanding c.manager.log a f > 0)
  | .connection .. | .publish _ => c.adapter
  | .publishDone id _ => c.publishes.contains id
  | .adapterTerminated => c.adapter && c.phase == .shuttingDown
  | .terminate => c.phase == .shuttingDown && !c.adapter && c.ops.isEmpty && c.publishes.isEmpty && c.tasks.isEmpty

theorem enabled_sound {c : Client} {now : Nat} {e : Event} (h : enabled c now e = true) : Enabled c now e := by
  cases e with
  | submit r => exact h
  | openStream f => exact h
  | release => exact h
  | activate id =>
    simp only [enabled] at h
    split at h
    · rename_i op hg
      simp only [Bool.and_eq_true] at h
      obtain ⟨h1, h2⟩ := h
      split at h2
      · rename_i f hb
        exact ⟨op, f, hg, hb, h1⟩
      · cases h2
    · cases h
  | close id =>
    simp only [enabled] at h
    split at h
    · rename_i op hg
      simp only [Bool.and_eq_true] at h
      obtain ⟨h1, h2⟩ := h
      split at h2
      · rename_i f hb
        exact ⟨op, f, hg, hb, h1⟩
      · cases h2
    · cases h
  | task env k =>
    simp only [enabled] at h
    split at h
    · rename_i t ht
      simp only [Bool.and_eq_true, Bool.or_eq_true, beq_iff_eq, Bool.not_eq_true', List.isEmpty_iff] at h
      refine ⟨t, ht, ?_, ?_⟩
      · rcases h.1 with h | h
        · exact .inl h
        · exact .inr (by simpa using h)
      · rw [h.2]; simp
    · cases h
  | service env expired =>
    simp only [enabled, Bool.and_eq_true, bne_iff_ne, decide_eq_true_eq, beq_iff_eq] at h
    obtain ⟨⟨⟨h1, h2⟩, h3⟩, h4⟩ := h
    refine ⟨h1, h2, by rw [← h4], ?_⟩
    match expired, h3 with
    | [], _ => exact trivial
    | [_], _ => exact ⟨by simp, trivial⟩
    | _ :: _ :: _, h => simp at h
  | finished env f a ok retryable =>
    simp only [enabled, Bool.and_eq_true, decide_eq_true_eq] at h
    exact ⟨h.1, fun _ => h.2⟩
  | connection env up joined => exact h
  | publish msg => exact h
  | publishDone id ok =>
    have h : c.publishes.contains id = true := h
    have h : id ∈ c.publishes := by simpa using h
    exact h
  | adapterTerminated =>
    simp only [enabled, Bool.and_eq_true, beq_iff_eq] at h
    exact h
  | terminate =>
    simp only [enabled, Bool.and_eq_true, beq_iff_eq, Bool.not_eq_true', List.isEmpty_iff] at h
    obtain ⟨⟨⟨⟨h1, h2⟩, h3⟩, h4⟩, h5⟩ := h
    exact ⟨h1, h2, h3, h4, by rw [h5]; simp, by rw [h5]; simp⟩

/-- Every event of a history is possible. -/
def possible (cfg : Config) : Client → History → Bool
  | _, [] => true
  | c, (now, e) :: es =>
    !c.terminated && decide (c.clock ≤ now) && enabled c now e &&
    match stepAt cfg { c with clock := now } now e with
    | .error _ => false
    | .ok c => possible cfg c es

/-- No service run finds an expired request in the queue. -/
def punctual (cfg : Config) : Client → History → Bool
  | _, [] => true
  | c, (now, e) :: es =>
    (match e with
      | .service _ expired => expired.all fun i => !c.queue.contains i
      | _ => true) &&
    match stepAt cfg { c with clock := now } now e with
    | .error _ => false
    | .ok c => punctual cfg c es

theorem eq_some_getD {α : Type} {o : Option α} (d : α) (h : o.isSome = true) : o = some (o.getD d) := by
  cases o
  · cases h
  · rfl

theorem play_anything {cfg : Config} {c c' : Client} {h : History} (hc : Reachable cfg anything c)
    (hp : possible cfg c h = true) (hr : play cfg c h = some c') : Reachable cfg anything c' := by
  induction h generalizing c with
  | nil => cases hr; exact hc
  | cons x xs ih =>
    obtain ⟨now, e⟩ := x
    simp only [possible, Bool.and_eq_true, Bool.not_eq_true', decide_eq_true_eq] at hp
    obtain ⟨⟨⟨h1, h2⟩, h3⟩, h4⟩ := hp
    simp only [play] at hr
    cases hs : stepAt cfg { c with clock := now } now e with
    | error f => rw [hs] at hr; cases hr
    | ok c1 =>
      rw [hs] at hr h4
      exact ih (hc.step h1 h2 (enabled_sound h3) trivial hs) h4 hr

theorem play_later {cfg : Config} {a c c' : Client} {h : History} (hc : Later cfg anything a c)
    (hp : possible cfg c h = true) (hr : play cfg c h = some c') : Later cfg anything a c' := by
  induction h generalizing c with
  | nil => cases hr; exact hc
  | cons x xs ih =>
    obtain ⟨now, e⟩ := x
    simp only [possible, Bool.and_eq_true, Bool.not_eq_true', decide_eq_true_eq] at hp
    obtain ⟨⟨⟨h1, h2⟩, h3⟩, h4⟩ := hp
    simp only [play] at hr
    cases hs : stepAt cfg { c with clock := now } now e with
    | error f => rw [hs] at hr; cases hr
    | ok c1 =>
      rw [hs] at hr h4
      exact ih (hc.step h1 h2 (enabled_sound h3) trivial hs) h4 hr

theorem play_timely {cfg : Config} {c c' : Client} {h : History} (hc : Reachable cfg Timely c)
    (hp : possible cfg c h = true) (ht : punctual cfg c h = true) (hr : play cfg c h = some c') :
    Reachable cfg Timely c' := by
  induction h generalizing c with
  | nil => cases hr; exact hc
  | cons x xs ih =>
    obtain ⟨now, e⟩ := x
    simp only [possible, punctual, Bool.and_eq_true, Bool.not_eq_true', decide_eq_true_eq] at hp ht
    obtain ⟨⟨⟨h1, h2⟩, h3⟩, h4⟩ := hp
    obtain ⟨h5, h6⟩ := ht
    simp only [play] at hr
    cases hs : stepAt cfg { c with clock := now } now e with
    | error f => rw [hs] at hr; cases hr
    | ok c1 =>
      rw [hs] at hr h4 h6
      refine ih (hc.step h1 h2 (enabled_sound h3) ?_ hs) h4 h6 hr
      cases e <;> try exact trivial
      simpa [Timely] using h5

end Mqtt.RrClient
