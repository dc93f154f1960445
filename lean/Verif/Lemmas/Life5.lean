import Verif.Spec.Life5

/-! The invariant of the life of an MQTT 5 client. -/
namespace Mqtt.Life5

def Task.holds : Task → Bool
  | .change .terminated => false
  | _ => true

def Task.isTransformed : Task → Bool
  | .transformed _ => true
  | _ => false

/-- Tasks that wait. -/
def Client.tasks (c : Client) : List Task := c.running ++ c.asap

def holds (l : List Task) : Nat := l.countP Task.holds
def trans (l : List Task) : Nat := l.countP Task.isTransformed
def terms (l : List Task) : Nat := l.count (.change .terminated)

/-- What does not depend on when service is scheduled. -/
structure Core (k : Nat) (c : Client) : Prop where
  refs : c.refs = c.user + holds c.tasks + k
  last : terms c.tasks > 0 ∨ c.desired = .terminated → c.user = 0 ∧ holds c.tasks = trans c.tasks
  first : c.desired ≠ .terminated → terms c.tasks > 0 → c.tasks.head? = some (.change .terminated) ∧ terms c.tasks = 1
  after : c.desired = .terminated → terms c.tasks > 0 → c.phase = .stopped
  gone : k = 0 → c.user = 0 → holds c.tasks = 0 → terms c.tasks > 0 ∨ c.desired = .terminated
  one : trans c.tasks + (if c.owed then 1 else 0) = if c.phase = .connecting ∧ c.net = .none then 1 else 0
  netConnecting : c.phase = .connecting → c.net ≠ .up
  netUp : c.phase = .live ∨ c.phase = .closing ↔ c.net = .up
  netNone : c.phase = .stopped ∨ c.phase = .pendingReconnect → c.net = .none
  handshake : c.handshake = true → c.net = .dialing
  request : c.request = if c.phase = .connecting ∧ c.net = .none ∨ c.handshake = true then 1 else 0

structure Sched (c : Client) : Prop where
  notBoth : ¬ (c.timed = true ∧ c.due = true)
  order : c.desired = .terminated → c.due = true → terms c.asap = 0

structure Service (c : Client) : Prop where
  quiet : c.phase = .connecting → c.timed = false ∧ c.due = false
  wanted : (c.phase = .stopped ∧ c.desired ≠ .stopped) ∨ c.phase = .pendingReconnect ∨ (c.phase = .live ∧ c.desired ≠ .connected) →
    c.timed = true ∨ c.due = true

structure Inv (c : Client) : Prop where
  alive : c.alive = true
  core : Core 0 c
  sched : Sched c
  service : Service c

/-- The client is gone. -/
structure Dead (c : Client) : Prop where
  alive : c.alive = false
  user : c.user = 0
  owed : c.owed = false
  net : c.net = .none
  running : c.running = []
  asap : c.asap = []
  timed : c.timed = false
  due : c.due = false
  request : c.request = 0
  phase : c.phase = .stopped
  refs : c.refs = 0

/-- A reference is about to be released. -/
structure Mid (c : Client) : Prop where
  core : Core 1 c
  terms : terms c.tasks = 0
  ended : c.desired = .terminated → c.phase = .stopped ∧ c.due = false

theorem split_tasks (l : List Task) : l.length = holds l + terms l := by
  induction l with
  | nil => rfl
  | cons t l ih =>
    unfold holds terms at *
    rw [List.length_cons, List.countP_cons, List.count_cons, ih]
    cases t with
    | change d => cases d <;> simp [Task.holds] <;> omega
    | use => simp [Task.holds]; omega
    | transformed b => simp [Task.holds]; omega

theorem trans_le (l : List Task) : trans l ≤ holds l := by
  unfold trans holds
  refine List.countP_mono_left fun t _ h => ?_
  cases t <;> simp_all [Task.isTransformed, Task.holds]

theorem holds_append (a b : List Task) : holds (a ++ b) = holds a + holds b := List.countP_append
theorem trans_append (a b : List Task) : trans (a ++ b) = trans a + trans b := List.countP_append
theorem terms_append (a b : List Task) : terms (a ++ b) = terms a + terms b := List.count_append

theorem holds_term : holds [.change .terminated] = 0 := rfl
theorem trans_term : trans [.change .terminated] = 0 := rfl
theorem terms_term : terms [.change .terminated] = 1 := rfl

theorem reevaluate_fields (c : Client) (x : Choice) :
    ∃ t d, c.reevaluate x = { c with timed := t, due := d } := by
  unfold Client.reevaluate
  split
  · split
    · exact ⟨c.timed, c.due, rfl⟩
    · exact ⟨_, _, rfl⟩
  · exact ⟨_, _, rfl⟩

theorem Core.reevaluate {k : Nat} {c : Client} (h : Core k c) (x : Choice) : Core k (c.reevaluate x) := by
  obtain ⟨t, d, hx⟩ := reevaluate_fields c x
  rw [hx]
  obtain ⟨h1, h2, h3, h4, h5, h6, h7, h8, h9, h10, h11⟩ := h
  exact ⟨h1, h2, h3, h4, h5, h6, h7, h8, h9, h10, h11⟩

theorem Sched.reevaluate {c : Client} (h : Sched c) (x : Choice) : Sched (c.reevaluate x) := by
  obtain ⟨h1, h2⟩ := h
  unfold Client.reevaluate
  split
  · split
    · exact ⟨h1, h2⟩
    · constructor <;> simp
  · constructor <;> simp

theorem service_reevaluate (c : Client) (x : Choice) : Service (c.reevaluate x) := by
  unfold Client.reevaluate Client.wants
  constructor
  · grind
  · grind

theorem reevaluate_due {c : Client} (x : Choice) (h : c.due = false) : (c.reevaluate x).due = false := by
  unfold Client.reevaluate
  grind

/-- The release of a reference. -/
theorem Mid.release {c : Client} (ha : c.alive = true) (h : Mid c) (hs : Sched c) (hv : Service c) :
    Inv c.release.1 ∧ Entry.bad ∉ c.release.2 := by
  obtain ⟨⟨h1, h2, h3, h4, h5, h6, h7, h8, h9, h10, h11⟩, ht, he⟩ := h
  have hl := split_tasks c.tasks
  have htl := trans_le c.tasks
  unfold Client.release
  split
  · omega
  · split
    · have h0 : c.tasks = [] := List.eq_nil_of_length_eq_zero (by omega)
      have hr : c.running = [] := by unfold Client.tasks at h0; simp at h0; exact h0.1
      have hp : c.asap = [] := by unfold Client.tasks at h0; simp at h0; exact h0.2
      have hu : c.user = 0 := by omega
      rw [h0] at h6
      refine ⟨⟨ha, ⟨?_, ?_, ?_, ?_, ?_, ?_, h7, h8, h9, h10, h11⟩, ⟨hs.notBoth, ?_⟩, ⟨hv.quiet, hv.wanted⟩⟩, by simp⟩
      · simp [Client.tasks, hr, hp, hu, holds_term]
      · simp [Client.tasks, hr, hp, hu, holds_term, trans_term]
      · simp [Client.tasks, hr, hp, terms_term]
      · intro hd _; exact (he hd).1
      · intro _ _ _; left; simp [Client.tasks, hr, hp, terms_term]
      · simpa [Client.tasks, hr, hp, trans, Task.isTransformed] using h6
      · intro hd hdue; rw [(he hd).2] at hdue; cases hdue
    · refine ⟨⟨ha, ⟨?_, h2, h3, h4, ?_, h6, h7, h8, h9, h10, h11⟩, ⟨hs.notBoth, hs.order⟩, ⟨hv.quiet, hv.wanted⟩⟩, by simp⟩
      · show c.refs - 1 = c.user + holds c.tasks + 0
        omega
      · intro _ hu hh
        have : c.user = 0 := hu
        have : holds c.tasks = 0 := hh
        omega

theorem Inv.using {c : Client} (h : Inv c) (hu : 0 < c.user) : terms c.tasks = 0 ∧ c.desired ≠ .terminated := by
  constructor
  · refine Nat.eq_zero_of_not_pos fun ht => ?_
    have := (h.core.last (.inl ht)).1
    omega
  · intro hd
    have := (h.core.last (.inr hd)).1
    omega

theorem schedule_tasks (c : Client) (t : Task) : (c.schedule t).1.tasks = c.tasks ++ [t] := by
  simp [Client.schedule, Client.acquire, Client.tasks]

/-- The user calls a function that schedules a task. -/
theorem Inv.schedule {c : Client} (h : Inv c) (hu : 0 < c.user) {t : Task} (ht : t.holds = true) (ht2 : t.isTransformed = false) :
    Inv (c.schedule t).1 ∧ Entry.bad ∉ (c.schedule t).2 := by
  obtain ⟨h0, hd⟩ := h.using hu
  obtain ⟨ha, ⟨h1, h2, h3, h4, h5, h6, h7, h8, h9, h10, h11⟩, hs, hv⟩ := h
  have hT : terms [t] = 0 := by
    have := split_tasks [t]
    simp [holds, ht] at this
    exact this
  have hH : holds [t] = 1 := by simp [holds, ht]
  have hR : trans [t] = 0 := by simp [trans, ht2]
  have e1 := schedule_tasks c t
  refine ⟨⟨ha, ⟨?_, ?_, ?_, ?_, ?_, ?_, h7, h8, h9, h10, h11⟩, ⟨hs.notBoth, ?_⟩, ⟨hv.quiet, hv.wanted⟩⟩, ?_⟩
  · rw [e1, holds_append, hH]; show c.refs + 1 = c.user + _ + 0; omega
  · rw [e1, terms_append, hT, h0]
    intro hx; rcases hx with hx | hx
    · omega
    · exact absurd hx hd
  · rw [e1, terms_append, hT, h0]
    intro _ hx; omega
  · intro hx; exact absurd hx hd
  · intro _ hx _
    have : c.user = 0 := hx
    omega
  · rw [e1, trans_append, hR]; exact h6
  · intro hx; exact absurd hx hd
  · have : c.refs ≠ 0 := by omega
    simp [Client.schedule, Client.acquire, this]

/-- The user completes the handshake transformation. -/
theorem Inv.answer {c : Client} (h : Inv c) (ho : c.owed = true) (ok : Bool) :
    Inv (({ c with owed := false } : Client).schedule (.transformed ok)).1 ∧
      Entry.bad ∉ (({ c with owed := false } : Client).schedule (.transformed ok)).2 := by
  obtain ⟨ha, ⟨h1, h2, h3, h4, h5, h6, h7, h8, h9, h10, h11⟩, hs, hv⟩ := h
  have hT : terms [Task.transformed ok] = 0 := rfl
  have hH : holds [Task.transformed ok] = 1 := rfl
  have hR : trans [Task.transformed ok] = 1 := rfl
  have e1 : (({ c with owed := false } : Client).schedule (.transformed ok)).1.tasks = c.tasks ++ [.transformed ok] :=
    schedule_tasks _ _
  rw [if_pos ho] at h6
  have hp : c.phase = .connecting := by
    by_cases hx : c.phase = .connecting ∧ c.net = .none
    · exact hx.1
    · rw [if_neg hx] at h6; omega
  refine ⟨⟨ha, ⟨?_, ?_, ?_, ?_, ?_, ?_, h7, h8, h9, h10, h11⟩, ⟨hs.notBoth, ?_⟩, ⟨hv.quiet, hv.wanted⟩⟩, ?_⟩
  · rw [e1, holds_append, hH]; show c.refs + 1 = c.user + _ + 0; omega
  · rw [e1, terms_append, hT, holds_append, trans_append, hH, hR]
    intro hx
    have := h2 hx
    exact ⟨this.1, by omega⟩
  · rw [e1, terms_append, hT]
    intro hx hy
    have := h3 hx hy
    refine ⟨?_, this.2⟩
    rw [List.head?_append, this.1]; rfl
  · rw [e1, terms_append, hT]
    exact h4
  · rw [e1, holds_append, hH]
    intro _ _ hx; omega
  · rw [e1, trans_append, hR]; exact h6
  · intro _ hx
    have := (hv.quiet hp).2
    have hx : c.due = true := hx
    rw [this] at hx; cases hx
  · simp only [Client.schedule, Client.acquire]
    split <;> simp

/-- A task that has a reference is taken from the queue. -/
theorem Inv.head {c : Client} (h : Inv c) {t : Task} {rest : List Task} (hr : c.running = t :: rest) (ht : t.holds = true) :
    terms (rest ++ c.asap) = 0 ∧ c.refs = c.user + holds (rest ++ c.asap) + 1 ∧
    trans (rest ++ c.asap) + (if t.isTransformed then 1 else 0) + (if c.owed then 1 else 0) =
      (if c.phase = .connecting ∧ c.net = .none then 1 else 0) ∧
    (c.desired = .terminated → t.isTransformed = true ∧ c.user = 0 ∧ holds (rest ++ c.asap) = trans (rest ++ c.asap)) := by
  obtain ⟨ha, ⟨h1, h2, h3, h4, h5, h6, h7, h8, h9, h10, h11⟩, hs, hv⟩ := h
  have e : c.tasks = [t] ++ (rest ++ c.asap) := by simp [Client.tasks, hr]
  generalize hl : rest ++ c.asap = l at e
  have hT : terms [t] = 0 := by
    have := split_tasks [t]
    simp [holds, ht] at this
    exact this
  have hH : holds [t] = 1 := by simp [holds, ht]
  have hR := trans_le l
  rw [e] at h1 h2 h3 h4 h5 h6
  rw [holds_append, hH] at h1 h2 h5
  rw [trans_append] at h2 h6
  rw [terms_append, hT] at h2 h3 h4 h5
  have hR1 : trans [t] = if t.isTransformed then 1 else 0 := by simp [trans, List.countP_cons]
  have hd : c.desired ≠ .terminated → terms l = 0 := by
    intro hx
    refine Nat.eq_zero_of_not_pos fun hy => ?_
    have := (h3 hx (by omega)).1
    simp at this
    rw [this] at ht
    cases ht
  have hd2 : c.desired = .terminated → t.isTransformed = true ∧ terms l = 0 := by
    intro hx
    have h2 := h2 (.inr hx)
    cases hb : t.isTransformed
    · rw [hb] at hR1; simp only [Bool.false_eq_true, if_false] at hR1; omega
    · refine ⟨rfl, Nat.eq_zero_of_not_pos fun hy => ?_⟩
      have hp := h4 hx (by omega)
      rw [hb, if_pos rfl] at hR1
      have : ¬ (c.phase = .connecting ∧ c.net = .none) := by rw [hp]; simp
      rw [if_neg this] at h6
      omega
  refine ⟨?_, by omega, by omega, ?_⟩
  · by_cases hx : c.desired = .terminated
    · exact (hd2 hx).2
    · exact hd hx
  · intro hx
    have h2 := h2 (.inr hx)
    have := (hd2 hx).1
    rw [this, if_pos rfl] at hR1
    exact ⟨this, h2.1, by omega⟩

theorem Inv.pop {c : Client} (h : Inv c) {t : Task} {rest : List Task} (hr : c.running = t :: rest) (ht : t.holds = true)
    (ht2 : t.isTransformed = false) :
    Core 1 { c with running := rest } ∧ Sched { c with running := rest } ∧ Service { c with running := rest } ∧
      terms ({ c with running := rest } : Client).tasks = 0 ∧ c.desired ≠ .terminated := by
  obtain ⟨k1, k2, k3, k4⟩ := h.head hr ht
  obtain ⟨ha, ⟨h1, h2, h3, h4, h5, h6, h7, h8, h9, h10, h11⟩, hs, hv⟩ := h
  have hd : c.desired ≠ .terminated := by
    intro hx; have := (k4 hx).1; rw [ht2] at this; cases this
  have e : ({ c with running := rest } : Client).tasks = rest ++ c.asap := rfl
  rw [ht2] at k3
  refine ⟨⟨?_, ?_, ?_, ?_, ?_, ?_, h7, h8, h9, h10, h11⟩, ⟨hs.notBoth, hs.order⟩, ⟨hv.quiet, hv.wanted⟩, k1, hd⟩
  · exact k2
  · intro hx; rcases hx with hx | hx
    · rw [e, k1] at hx; omega
    · exact absurd hx hd
  · intro _ hx; rw [e, k1] at hx; omega
  · intro hx; exact absurd hx hd
  · intro hx; cases hx
  · exact k3

/-- The connection is being closed. -/
theorem Core.close {k : Nat} {c : Client} (h : Core k c) (hp : c.phase = .live) : Core k { c with phase := .closing } := by
  obtain ⟨h1, h2, h3, h4, h5, h6, h7, h8, h9, h10, h11⟩ := h
  have hn : c.net = .up := h8.1 (.inl hp)
  refine ⟨h1, h2, h3, ?_, h5, ?_, ?_, ?_, ?_, h10, ?_⟩
  · intro a b; have := h4 a b; rw [hp] at this; cases this
  · have h6 : trans c.tasks + _ = _ := h6
    have hz : ¬ (c.phase = .connecting ∧ c.net = .none) := by rw [hp]; simp
    rw [if_neg hz] at h6
    show trans c.tasks + (if c.owed then 1 else 0) = _
    rw [h6]; simp
  · simp
  · simp [hn]
  · simp
  · simpa [hp] using h11

theorem Core.tryClose {k : Nat} {c : Client} (h : Core k c) (b : Bool) :
    Core k (if b ∧ c.phase = .live then { c with phase := .closing } else c) := by
  split
  · rename_i hx; exact h.close hx.2
  · exact h

theorem tryClose_same (c : Client) (b : Bool) : ∃ p, (if b ∧ c.phase = .live then { c with phase := .closing } else c : Client) =
    { c with phase := p } := by
  split
  · exact ⟨_, rfl⟩
  · exact ⟨c.phase, rfl⟩

/-- Another task. -/
theorem Inv.use {c : Client} (h : Inv c) {rest : List Task} (hr : c.running = .use :: rest) (x : Choice) {c1 : Client}
    (h1 : c1 = if (!x.ok) = true ∧ ({ c with running := rest } : Client).phase = .live then
      { ({ c with running := rest } : Client) with phase := .closing } else { c with running := rest }) :
    Inv (c1.reevaluate x).release.1 ∧ Entry.bad ∉ (c1.reevaluate x).release.2 := by
  obtain ⟨k1, k2, k3, k4, k5⟩ := h.pop hr rfl rfl
  have ha := h.alive
  obtain ⟨p, hp⟩ := tryClose_same ({ c with running := rest }) (!x.ok)
  have hc := k1.tryClose (!x.ok)
  rw [hp] at hc h1
  rw [h1]
  obtain ⟨t, d, hx⟩ := reevaluate_fields { c with running := rest, phase := p } x
  have hs : Sched { c with running := rest, phase := p } := ⟨k2.notBoth, k2.order⟩
  refine Mid.release (by rw [hx]; exact ha) ⟨hc.reevaluate x, ?_, ?_⟩ (hs.reevaluate x) (service_reevaluate _ x)
  · rw [hx]; exact k4
  · rw [hx]; intro hd; exact absurd hd k5

/-- The desired state changes. -/
theorem Inv.change {c : Client} (h : Inv c) {d : Desired} {rest : List Task} (hr : c.running = .change d :: rest) (x : Choice) :
    Inv (({ c with running := rest } : Client).change d x).1 ∧ Entry.bad ∉ (({ c with running := rest } : Client).change d x).2 := by
  by_cases hd : d = .terminated
  · subst hd
    obtain ⟨ha, ⟨h1, h2, h3, h4, h5, h6, h7, h8, h9, h10, h11⟩, hs, hv⟩ := h
    have e : c.tasks = [.change .terminated] ++ (rest ++ c.asap) := by simp [Client.tasks, hr]
    generalize hl : rest ++ c.asap = l at e
    have el : ({ c with running := rest } : Client).tasks = l := hl
    have et : terms l = terms rest + terms c.asap := by rw [← hl, terms_append]
    rw [e] at h1 h2 h3 h4 h6
    rw [holds_append, holds_term] at h1 h2
    rw [trans_append, trans_term] at h2 h6
    rw [terms_append, terms_term] at h2 h3 h4
    have h2 := h2 (.inl (by omega))
    unfold Client.change
    simp only [if_true]
    split
    · rename_i hd
      have hd : c.desired = .terminated := hd
      refine ⟨⟨ha, ⟨?_, ?_, ?_, ?_, ?_, ?_, h7, h8, h9, h10, h11⟩, ⟨hs.notBoth, hs.order⟩, ⟨hv.quiet, hv.wanted⟩⟩, by simp⟩
      · rw [el]; show c.refs = c.user + _ + 0; omega
      · rw [el]; intro _; exact ⟨h2.1, by omega⟩
      · intro hx; exact absurd hd hx
      · intro _ _; exact h4 hd (by omega)
      · intro _ _ _; exact .inr hd
      · rw [el]; rw [Nat.zero_add] at h6; exact h6
    · rename_i hd
      have hd : c.desired ≠ .terminated := hd
      have h3 := (h3 hd (by omega)).2
      have hc : Core 0 { c with running := rest, desired := .terminated } := by
        have el : ({ c with running := rest, desired := .terminated } : Client).tasks = l := hl
        refine ⟨?_, ?_, ?_, ?_, ?_, ?_, h7, h8, h9, h10, h11⟩
        · rw [el]; show c.refs = c.user + _ + 0; omega
        · rw [el]; intro _; exact ⟨h2.1, by omega⟩
        · intro hx; exact absurd rfl hx
        · rw [el]; intro _ _; omega
        · intro _ _ _; exact .inr rfl
        · rw [el]; rw [Nat.zero_add] at h6; exact h6
      have hz : Sched { c with running := rest, desired := .terminated } := ⟨hs.notBoth, fun _ _ => by
        show terms c.asap = 0; omega⟩
      obtain ⟨t, d, hx⟩ := reevaluate_fields { c with running := rest, desired := .terminated } x
      simp only [reduceCtorEq, false_and, if_false]
      refine ⟨⟨?_, hc.reevaluate x, hz.reevaluate x, service_reevaluate _ x⟩, by simp⟩
      rw [hx]; exact ha
  · have ht : (Task.change d).holds = true := by cases d <;> first | rfl | exact absurd rfl hd
    obtain ⟨k1, k2, k3, k4, k5⟩ := h.pop hr ht rfl
    have ha := h.alive
    unfold Client.change
    simp only [hd, if_false]
    split
    · exact Mid.release ha ⟨k1, k4, fun hx => absurd hx k5⟩ k2 k3
    · have hc : Core 1 { c with running := rest, desired := d } := by
        obtain ⟨h1, h2, h3, h4, h5, h6, h7, h8, h9, h10, h11⟩ := k1
        refine ⟨h1, ?_, ?_, ?_, ?_, h6, h7, h8, h9, h10, h11⟩
        · intro hx; rcases hx with hx | hx
          · have : terms ({ c with running := rest } : Client).tasks > 0 := hx
            omega
          · exact absurd hx hd
        · intro _ hx
          have : terms ({ c with running := rest } : Client).tasks > 0 := hx
          omega
        · intro hx; exact absurd hx hd
        · intro hx; cases hx
      have hb : ∃ b : Bool, (if d = .stopped ∧ (!x.ok) = true ∧ ({ c with running := rest, desired := d } : Client).phase = .live then
          { c with running := rest, desired := d, phase := .closing } else { c with running := rest, desired := d }) =
          (if b ∧ ({ c with running := rest, desired := d } : Client).phase = .live then
            { { c with running := rest, desired := d } with phase := .closing } else { c with running := rest, desired := d }) := by
        refine ⟨decide (d = .stopped) && !x.ok, ?_⟩
        simp [and_assoc]
      obtain ⟨b, hb⟩ := hb
      simp only at hb ⊢
      rw [hb]
      clear hb
      have hc := hc.tryClose b
      obtain ⟨p, hp⟩ := tryClose_same ({ c with running := rest, desired := d }) b
      rw [hp] at hc ⊢
      obtain ⟨t, e, hx⟩ := reevaluate_fields { c with running := rest, desired := d, phase := p } x
      have hs : Sched { c with running := rest, desired := d, phase := p } := ⟨k2.notBoth, fun hx => absurd hx hd⟩
      refine Mid.release (by rw [hx]; exact ha) ⟨hc.reevaluate x, ?_, ?_⟩ (hs.reevaluate x) (service_reevaluate _ x)
      · rw [hx]; exact k4
      · rw [hx]; intro hy; exact absurd hy hd

/-- What the task does that the completed transformation schedules. -/
theorem transformed_eq {c : Client} (hh : c.handshake = false) (hq : c.request = 1) (ok : Bool) (x : Choice) :
    c.transformed ok x =
      if ok = true ∧ c.desired = .connected ∧ x.ok = true then
        (({ c with net := .dialing, handshake := true } : Client).release.1,
          Entry.dialed :: ({ c with net := .dialing, handshake := true } : Client).release.2)
      else (({ c.down x with request := 0 } : Client).release.1,
          [.failed, .requestFreed] ++ ({ c.down x with request := 0 } : Client).release.2) := by
  obtain ⟨refs, desired, phase, alive, timed, due, running, asap, handshake, request, user, owed, net⟩ := c
  simp only at hh hq
  subst hh hq
  unfold Client.transformed
  simp only [Client.dropHandshake, Bool.false_eq_true, if_false, Nat.one_ne_zero]
  split
  · simp [Client.dropRequest]
  · simp only [Client.dropRequest, if_true]
    obtain ⟨t, d, hx⟩ := reevaluate_fields ({
      refs, phase := if desired = .connected then .pendingReconnect else .stopped,
      desired, alive, timed, due, running, asap, handshake := false, request := 1, user, owed, net } : Client) x
    simp [Client.down, hx]

theorem Inv.transformed {c : Client} (h : Inv c) {ok : Bool} {rest : List Task} (hr : c.running = .transformed ok :: rest)
    (x : Choice) :
    Inv (({ c with running := rest } : Client).transformed ok x).1 ∧
      Entry.bad ∉ (({ c with running := rest } : Client).transformed ok x).2 := by
  obtain ⟨k1, k2, k3, k4⟩ := h.head hr rfl
  obtain ⟨ha, ⟨h1, h2, h3, h4, h5, h6, h7, h8, h9, h10, h11⟩, hs, hv⟩ := h
  simp only [Task.isTransformed, if_true] at k3
  have hp : c.phase = .connecting ∧ c.net = .none := by
    refine Decidable.byContradiction fun hx => ?_
    rw [if_neg hx] at k3; omega
  rw [if_pos hp] at k3
  have ht0 : trans (rest ++ c.asap) = 0 := by omega
  have ho : c.owed = false := by
    cases hx : c.owed
    · rfl
    · rw [hx] at k3; simp at k3
  have hh : c.handshake = false := by
    cases hx : c.handshake
    · rfl
    · have := h10 hx; rw [hp.2] at this; cases this
  have hq : c.request = 1 := by rw [h11, if_pos (.inl hp)]
  have hqu := hv.quiet hp.1
  rw [transformed_eq (c := { c with running := rest }) hh hq]
  have hor : terms c.asap = 0 := by rw [terms_append] at k1; omega
  split
  · rename_i hx
    have hd : c.desired = .connected := hx.2.1
    have := Mid.release (c := { c with running := rest, net := .dialing, handshake := true }) ha ⟨⟨k2, ?_, ?_, ?_, ?_, ?_, ?_, ?_, ?_, ?_, ?_⟩, k1, ?_⟩
      ⟨hs.notBoth, hs.order⟩ ⟨hv.quiet, hv.wanted⟩
    · exact ⟨this.1, by simp [this.2]⟩
    · intro hy; rcases hy with hy | hy
      · exact absurd hy (by show ¬ terms (rest ++ c.asap) > 0; omega)
      · rw [show c.desired = .terminated from hy] at hd; cases hd
    · intro _ hy; exact absurd hy (by show ¬ terms (rest ++ c.asap) > 0; omega)
    · intro _ hy; exact absurd hy (by show ¬ terms (rest ++ c.asap) > 0; omega)
    · intro hy; cases hy
    · show trans (rest ++ c.asap) + _ = _
      rw [ht0, ho]; simp
    · simp
    · simp [hp.1]
    · simp [hp.1]
    · simp
    · simp [hq]
    · intro hy; rw [show c.desired = .terminated from hy] at hd; cases hd
  · unfold Client.down
    simp only
    obtain ⟨t, d, hx⟩ := reevaluate_fields { c with
      running := rest
      phase := if c.desired = .connected then .pendingReconnect else .stopped } x
    have hS : Sched { c with
      running := rest
      phase := if c.desired = .connected then .pendingReconnect else .stopped } := ⟨hs.notBoth, fun _ _ => hor⟩
    have hS := hS.reevaluate x
    have hV := service_reevaluate { c with
      running := rest
      phase := if c.desired = .connected then .pendingReconnect else .stopped } x
    have hD := reevaluate_due (c := { c with
      running := rest
      phase := if c.desired = .connected then .pendingReconnect else .stopped }) x hqu.2
    rw [hx] at hS hV hD ⊢
    have hne : ¬ ((if c.desired = .connected then Phase.pendingReconnect else .stopped) = .connecting) := by split <;> simp
    have := Mid.release (c := { c with
      running := rest
      phase := if c.desired = .connected then .pendingReconnect else .stopped
      timed := t
      due := d
      request := 0 }) ha ⟨⟨k2, ?_, ?_, ?_, ?_, ?_, ?_, ?_, ?_, ?_, ?_⟩, k1, ?_⟩
      ⟨hS.notBoth, hS.order⟩ ⟨hV.quiet, hV.wanted⟩
    · exact ⟨this.1, by simp [this.2]⟩
    · intro hy; rcases hy with hy | hy
      · exact absurd hy (by show ¬ terms (rest ++ c.asap) > 0; omega)
      · exact (k4 hy).2
    · intro _ hy; exact absurd hy (by show ¬ terms (rest ++ c.asap) > 0; omega)
    · intro _ hy; exact absurd hy (by show ¬ terms (rest ++ c.asap) > 0; omega)
    · intro hy; cases hy
    · show trans (rest ++ c.asap) + _ = _
      rw [ht0, ho]; simp [hne]
    · intro hy; exact absurd hy hne
    · simp only [hp.2]; constructor
      · intro hy; rcases hy with hy | hy <;> (split at hy <;> cases hy)
      · intro hy; cases hy
    · intro _; exact hp.2
    · intro hy; rw [show c.handshake = true from hy] at hh; cases hh
    · simp [hne, hh]
    · intro hy
      have hy : c.desired = .terminated := hy
      exact ⟨by simp [hy], hD⟩

/-- The connection, and what belongs to it, changes. -/
theorem Core.move {k : Nat} {c : Client} (h : Core k c) (p : Phase) (n : Net) (o hs : Bool) (q : Nat)
    (h4 : c.desired = .terminated → terms c.tasks > 0 → p = .stopped)
    (h6 : trans c.tasks + (if o then 1 else 0) = if p = .connecting ∧ n = .none then 1 else 0)
    (h7 : p = .connecting → n ≠ .up) (h8 : p = .live ∨ p = .closing ↔ n = .up)
    (h9 : p = .stopped ∨ p = .pendingReconnect → n = .none) (h10 : hs = true → n = .dialing)
    (h11 : q = if p = .connecting ∧ n = .none ∨ hs = true then 1 else 0) :
    Core k { c with phase := p, net := n, owed := o, handshake := hs, request := q } :=
  ⟨h.refs, h.last, h.first, h4, h.gone, h6, h7, h8, h9, h10, h11⟩

/-- Without a pending transformation. -/
theorem Core.idle {k : Nat} {c : Client} (h : Core k c) (hp : ¬ (c.phase = .connecting ∧ c.net = .none)) :
    trans c.tasks = 0 ∧ c.owed = false := by
  have := h.one
  rw [if_neg hp] at this
  cases ho : c.owed
  · rw [ho] at this; simpa using this
  · rw [ho] at this; simp at this

theorem Inv.of {c : Client} (ha : c.alive = true) (hc : Core 0 c) (hs : Sched c) (x : Choice) : Inv (c.reevaluate x) := by
  refine ⟨?_, hc.reevaluate x, hs.reevaluate x, service_reevaluate c x⟩
  obtain ⟨t, d, hx⟩ := reevaluate_fields c x
  rw [hx]; exact ha

theorem Inv.noHandshake {c : Client} (h : Inv c) (hn : c.net ≠ .dialing) : c.handshake = false := by
  cases hx : c.handshake
  · rfl
  · exact absurd (h.core.handshake hx) hn

/-- A connection attempt. -/
theorem Inv.connect {c : Client} (h : Inv c) (hd : c.desired = .connected) (hp : c.phase = .stopped ∨ c.phase = .pendingReconnect)
    (ws : Bool) (x : Choice) {c1 : Client} (h1 : c1 = { c with due := false }) :
    Inv ((c1.connect ws x).1.reevaluate x) ∧ Entry.bad ∉ (c1.connect ws x).2 := by
  have hn := h.core.netNone hp
  have hne : ¬ (c.phase = .connecting ∧ c.net = .none) := by intro hx; rcases hp with hp | hp <;> (rw [hp] at hx; cases hx.1)
  obtain ⟨hi, ho⟩ := h.core.idle hne
  have hh := h.noHandshake (by rw [hn]; simp)
  have ht : ¬ c.desired = .terminated := by rw [hd]; simp
  subst h1
  have hs : ∀ p n o q, Sched { c with due := false, phase := p, net := n, owed := o, request := q } := fun _ _ _ _ =>
    ⟨by simp, by simp⟩
  have hq : c.request = 0 := by rw [h.core.request]; simp [hne, hh]
  unfold Client.connect
  split
  · refine ⟨Inv.of (by exact h.alive) ?_ (by exact hs _ _ _ _) x, by simp⟩
    have := h.core.move .pendingReconnect c.net c.owed c.handshake c.request (fun hx => absurd hx ht) (by rw [hi, ho]; simp)
      (by simp) (by simp [hn]) (by simp [hn]) (by simp [hh]) (by simp [hq, hh])
    exact ⟨this.1, this.2, this.3, this.4, this.5, this.6, this.7, this.8, this.9, this.10, this.11⟩
  · split
    · refine ⟨Inv.of (by exact h.alive) ?_ (by exact hs _ _ _ _) x, by simp⟩
      have := h.core.move .connecting c.net true c.handshake 1 (fun hx => absurd hx ht) (by rw [hi, hn]; simp)
        (by simp [hn]) (by simp [hn]) (by simp) (by simp [hh]) (by simp [hn])
      exact ⟨this.1, this.2, this.3, this.4, this.5, this.6, this.7, this.8, this.9, this.10, this.11⟩
    · refine ⟨Inv.of (by exact h.alive) ?_ (by exact hs _ _ _ _) x, by simp⟩
      have := h.core.move .connecting .dialing c.owed c.handshake c.request (fun hx => absurd hx ht) (by rw [hi, ho]; simp)
        (by simp) (by simp) (by simp) (by simp) (by simp [hq, hh])
      exact ⟨this.1, this.2, this.3, this.4, this.5, this.6, this.7, this.8, this.9, this.10, this.11⟩

theorem Core.due {k : Nat} {c : Client} (h : Core k c) (d : Bool) : Core k { c with due := d } :=
  ⟨h.1, h.2, h.3, h.4, h.5, h.6, h.7, h.8, h.9, h.10, h.11⟩

/-- The service task. -/
theorem Inv.serve {c : Client} (h : Inv c) (hr : c.running = []) (hdue : c.due = true) (ws : Bool) (x : Choice) {c1 : Client}
    (h1 : c1 = { c with due := false }) :
    (Inv (c1.service ws x).1 ∧ Entry.bad ∉ (c1.service ws x).2) ∨
      (Dead (c1.service ws x).1 ∧ (c1.service ws x).2 = [.destroyed]) := by
  have hc0 := h.core.due false
  rw [← h1] at hc0
  have hs0 : Sched c1 := by subst h1; exact ⟨by simp, by simp⟩
  have ha : c1.alive = true := by subst h1; exact h.alive
  have hsame : Inv (c1.reevaluate x) := Inv.of ha hc0 hs0 x
  have hp1 : c1.phase = c.phase := by subst h1; rfl
  have hd1 : c1.desired = c.desired := by subst h1; rfl
  unfold Client.service
  split
  · rename_i hp
    split
    · rename_i hd
      exact .inl (h.connect (hd1.symm.trans hd) (.inl (hp1.symm.trans hp)) ws x h1)
    · rename_i hd
      right
      have hd : c.desired = .terminated := hd1.symm.trans hd
      have hp : c.phase = .stopped := hp1.symm.trans hp
      obtain ⟨hi, ho⟩ := h.core.idle (by rw [hp]; simp)
      obtain ⟨hu, hh⟩ := h.core.last (.inr hd)
      have hn := h.core.netNone (.inl hp)
      have hk := h.noHandshake (by rw [hn]; simp)
      have hq := h.core.request
      have hz : ¬ (c.phase = .connecting ∧ c.net = .none ∨ c.handshake = true) := by rw [hp, hk]; simp
      rw [if_neg hz] at hq
      have ht : c.tasks = c.asap := by simp [Client.tasks, hr]
      rw [ht] at hh hi
      have h0 := h.sched.order hd hdue
      have hl := split_tasks c.asap
      have hasap : c.asap = [] := List.eq_nil_of_length_eq_zero (by omega)
      have hrefs : c.refs = 0 := by have := h.core.refs; rw [ht] at this; omega
      have htimed : c.timed = false := by
        cases hx : c.timed
        · rfl
        · exact absurd ⟨hx, hdue⟩ h.sched.notBoth
      subst h1
      exact ⟨⟨rfl, hu, ho, hn, hr, hasap, htimed, rfl, by simp [hk, hq], hp, hrefs⟩, rfl⟩
    · exact .inl ⟨hsame, by simp⟩
  · rename_i hp
    left
    split
    · exact ⟨Inv.of (by exact ha) (by exact hc0.close hp) (by exact ⟨hs0.1, hs0.2⟩) x, by simp⟩
    · exact ⟨hsame, by simp⟩
  · rename_i hp
    left
    split
    · refine ⟨Inv.of (by exact ha) ?_ (by exact ⟨hs0.1, hs0.2⟩) x, by simp⟩
      have hn := hc0.netNone (.inr hp)
      obtain ⟨hi, ho⟩ := hc0.idle (by rw [hp]; simp)
      have hh : c1.handshake = false := by
        cases hx : c1.handshake
        · rfl
        · have := hc0.handshake hx; rw [hn] at this; cases this
      have hq := hc0.request
      have hz : ¬ (c1.phase = .connecting ∧ c1.net = .none ∨ c1.handshake = true) := by rw [hp, hh]; simp
      rw [if_neg hz] at hq
      have := hc0.move .stopped c1.net c1.owed c1.handshake c1.request (fun _ _ => rfl) (by rw [hi, ho]; simp) (by simp)
        (by simp [hn]) (by simp [hn]) (by simp [hh]) (by simp [hq, hh])
      exact this
    · rename_i hd
      have hd : c1.desired = .connected := by simpa using hd
      split
      · exact h.connect (hd1.symm.trans hd) (.inr (hp1.symm.trans hp)) ws x h1
      · exact ⟨hsame, by simp⟩
  · exact .inl ⟨hsame, by simp⟩

theorem run_nil {c : Client} (hr : c.running = []) (ha : c.alive = true) (ws : Bool) (x : Choice) :
    c.run ws x = if !c.due then (c, []) else ({ c with due := false } : Client).service ws x := by
  unfold Client.run
  rw [hr]
  simp only
  split
  · rfl
  · rw [if_neg (by simp [ha])]

theorem run_change {c : Client} {d : Desired} {rest : List Task} (hr : c.running = .change d :: rest) (ha : c.alive = true) (ws : Bool)
    (x : Choice) : c.run ws x = ({ c with running := rest } : Client).change d x := by
  unfold Client.run
  rw [hr]
  exact if_neg (by simp [ha])

theorem run_use {c : Client} {rest : List Task} (hr : c.running = .use :: rest) (ha : c.alive = true) (ws : Bool) (x : Choice) :
    c.run ws x = ((if (!x.ok) = true ∧ ({ c with running := rest } : Client).phase = .live then
      { ({ c with running := rest } : Client) with phase := .closing } else { c with running := rest } : Client).reevaluate x).release := by
  unfold Client.run
  rw [hr]
  exact if_neg (by simp [ha])

theorem run_transformed {c : Client} {ok : Bool} {rest : List Task} (hr : c.running = .transformed ok :: rest) (ha : c.alive = true)
    (ws : Bool) (x : Choice) : c.run ws x = ({ c with running := rest } : Client).transformed ok x := by
  unfold Client.run
  rw [hr]
  exact if_neg (by simp [ha])

theorem Inv.run {c : Client} (h : Inv c) (ws : Bool) (x : Choice) :
    (Inv (c.run ws x).1 ∧ Entry.bad ∉ (c.run ws x).2) ∨ (Dead (c.run ws x).1 ∧ (c.run ws x).2 = [.destroyed]) := by
  have ha := h.alive
  cases hr : c.running with
  | nil =>
    rw [run_nil hr ha]
    split
    · exact .inl ⟨h, by simp⟩
    · rename_i hd
      exact h.serve hr (by simpa using hd) ws x rfl
  | cons t rest =>
    left
    cases t with
    | change d => rw [run_change hr ha]; exact h.change hr x
    | use => rw [run_use hr ha]; exact h.use hr x rfl
    | transformed ok => rw [run_transformed hr ha]; exact h.transformed hr x

/-- The connection is gone, or was not made. -/
theorem Inv.down {c : Client} (h : Inv c) (hn : c.net ≠ .none) (x : Choice) {c1 : Client}
    (h1 : c1 = { c with handshake := false, request := 0, net := .none }) : Inv (c1.down x) := by
  have hp : c.phase ≠ .stopped ∧ c.phase ≠ .pendingReconnect := ⟨fun hx => hn (h.core.netNone (.inl hx)),
    fun hx => hn (h.core.netNone (.inr hx))⟩
  obtain ⟨hi, ho⟩ := h.core.idle (fun hx => hn hx.2)
  subst h1
  unfold Client.down
  have hq : ∀ p : Prop, ∀ [Decidable p], ¬ (if p then Phase.pendingReconnect else .stopped) = .connecting := by
    intro p _; split <;> simp
  refine Inv.of (by exact h.alive) ?_ (by exact ⟨h.sched.1, h.sched.2⟩) x
  refine h.core.move _ .none c.owed false 0 ?_ ?_ (by simp) ?_ (by simp) (by simp) ?_
  · intro hx _; exact if_neg (by rw [hx]; simp)
  · rw [hi, ho]; simp [hq]
  · split <;> simp
  · rw [if_neg]; simp [hq]

theorem Inv.turn {c : Client} (h : Inv c) (hr : c.running = []) (hd : c.due = false) (due : Bool) :
    Inv { c with running := c.asap, asap := [], due := c.timed && due, timed := c.timed && !due } := by
  have ht : ({ c with running := c.asap, asap := [], due := c.timed && due, timed := c.timed && !due } : Client).tasks = c.tasks := by
    simp [Client.tasks, hr]
  obtain ⟨ha, ⟨h1, h2, h3, h4, h5, h6, h7, h8, h9, h10, h11⟩, hs, hv⟩ := h
  refine ⟨ha, ⟨?_, ?_, ?_, ?_, ?_, ?_, h7, h8, h9, h10, h11⟩, ⟨?_, ?_⟩, ⟨?_, ?_⟩⟩
  · rw [ht]; exact h1
  · rw [ht]; exact h2
  · rw [ht]; exact h3
  · rw [ht]; exact h4
  · rw [ht]; exact h5
  · rw [ht]; exact h6
  · cases c.timed <;> cases due <;> simp
  · intro _ _; rfl
  · intro hp
    have := (hv.quiet hp).1
    simp [this]
  · intro hp
    have := hv.wanted hp
    rw [hd] at this
    have : c.timed = true := by simpa using this
    cases due <;> simp [this]

theorem dropHandshake_eq {c : Client} (h : Inv c) (hn : c.net ≠ .none) :
    c.dropHandshake = ({ c with handshake := false, request := 0 }, if c.handshake then [.requestFreed] else []) := by
  have hq := h.core.request
  unfold Client.dropHandshake
  cases hh : c.handshake
  · rw [hh] at hq
    have hz : ¬ ((c.phase = .connecting ∧ c.net = .none) ∨ false = true) := by simp [hn]
    rw [if_neg hz] at hq
    obtain ⟨refs, desired, phase, alive, timed, due, running, asap, handshake, request, user, owed, net⟩ := c
    simp only at hq hh
    subst hq hh
    rfl
  · rw [hh, if_pos (.inr rfl)] at hq
    simp [Client.dropRequest, hq]

/-- A connection is there. -/
theorem Inv.opened {c : Client} (h : Inv c) (hn : c.net = .dialing) (x : Choice) (b : Bool) :
    c.phase = .connecting ∧ Inv ({ c with handshake := false, request := 0, net := .spoiled }) ∧
    Inv (({ c with
      handshake := false
      request := 0
      net := .up
      phase := if b then .live else .closing } : Client).reevaluate x) := by
  have hp : c.phase = .connecting := by
    cases hx : c.phase
    · have := h.core.netNone (.inl hx); rw [hn] at this; cases this
    · rfl
    · have := h.core.netUp.1 (.inl hx); rw [hn] at this; cases this
    · have := h.core.netUp.1 (.inr hx); rw [hn] at this; cases this
    · have := h.core.netNone (.inr hx); rw [hn] at this; cases this
  have ht : c.desired = .terminated → ¬ terms c.tasks > 0 := by
    intro a b; have := h.core.after a b; rw [hp] at this; cases this
  obtain ⟨hi, ho⟩ := h.core.idle (by rw [hn]; simp)
  refine ⟨hp, ⟨h.alive, ?_, ⟨h.sched.1, h.sched.2⟩, ⟨h.service.1, h.service.2⟩⟩, Inv.of (by exact h.alive) ?_ (by exact ⟨h.sched.1, h.sched.2⟩) x⟩
  · exact h.core.move c.phase .spoiled c.owed false 0 h.core.after (by rw [hi, ho]; simp) (by simp) (by simp [hp]) (by simp [hp])
      (by simp) (by simp)
  · refine h.core.move _ .up c.owed false 0 (fun a b => absurd b (ht a)) ?_ ?_ ?_ ?_ (by simp) (by simp)
    · rw [hi, ho]; simp
    · cases b <;> simp
    · cases b <;> simp
    · cases b <;> simp

theorem Inv.io {c : Client} (h : Inv c) (x : Choice) (b : Bool) :
    Inv ((if b ∧ c.phase = .live then { c with phase := .closing } else c : Client).reevaluate x) := by
  have hc := h.core.tryClose b
  obtain ⟨p, hp⟩ := tryClose_same c b
  rw [hp] at hc ⊢
  exact Inv.of (by exact h.alive) hc (by exact ⟨h.sched.1, h.sched.2⟩) x

theorem Inv.acquire {c : Client} (h : Inv c) (hu : 0 < c.user) : Inv { c with refs := c.refs + 1, user := c.user + 1 } := by
  obtain ⟨h0, hd⟩ := h.using hu
  obtain ⟨ha, ⟨h1, h2, h3, h4, h5, h6, h7, h8, h9, h10, h11⟩, hs, hv⟩ := h
  refine ⟨ha, ⟨?_, ?_, h3, h4, ?_, h6, h7, h8, h9, h10, h11⟩, ⟨hs.1, hs.2⟩, ⟨hv.1, hv.2⟩⟩
  · show c.refs + 1 = c.user + 1 + holds c.tasks + 0; omega
  · intro hx; rcases hx with hx | hx
    · have : terms c.tasks > 0 := hx
      omega
    · exact absurd hx hd
  · intro _ hx; cases hx

theorem release_user (c : Client) (hr : c.refs ≠ 0) (n : Nat) :
    ({ c with user := n } : Client).release = ({ c.release.1 with user := n }, c.release.2) := by
  unfold Client.release
  simp only [hr, if_false]
  split <;> rfl

theorem Inv.release {c : Client} (h : Inv c) (hu : 0 < c.user) :
    Inv { c.release.1 with user := c.user - 1 } ∧ Entry.bad ∉ c.release.2 := by
  obtain ⟨h0, hd⟩ := h.using hu
  have hr := h.core.refs
  have := Mid.release (c := { c with user := c.user - 1 }) h.alive ⟨⟨?_, ?_, h.core.first, h.core.after, ?_, h.core.one,
    h.core.netConnecting, h.core.netUp, h.core.netNone, h.core.handshake, h.core.request⟩, h0, fun hx => absurd hx hd⟩
    ⟨h.sched.1, h.sched.2⟩ ⟨h.service.1, h.service.2⟩
  · rw [release_user c (by omega)] at this
    exact this
  · show c.refs = c.user - 1 + holds c.tasks + 1; omega
  · intro hx; rcases hx with hx | hx
    · have : terms c.tasks > 0 := hx
      omega
    · exact absurd hx hd
  · intro hx; cases hx

/-- Every step keeps the invariant, or ends the client. -/
theorem Inv.step {c : Client} (h : Inv c) {ws : Bool} {e : Event} (he : Enabled ws c e) :
    (Inv (step ws c e).1 ∧ Entry.bad ∉ (step ws c e).2) ∨ (Dead (step ws c e).1 ∧ (step ws c e).2 = [.destroyed]) := by
  have ha : ¬ ((!c.alive) = true) := by simp [h.alive]
  cases e with
  | acquire =>
    left
    have hr : c.refs ≠ 0 := by have := h.core.refs; have : 0 < c.user := he; omega
    simp only [Life5.step, if_neg ha, Client.acquire, hr, if_false]
    exact ⟨h.acquire he, by simp⟩
  | release =>
    left
    simp only [Life5.step, if_neg ha]
    have := h.release he
    have hu : c.release.1.user = c.user := by
      unfold Client.release; split
      · rfl
      · split <;> rfl
    rw [hu]
    exact ⟨this.1, by simp [this.2]⟩
  | change b =>
    left
    simp only [Life5.step, if_neg ha]
    exact h.schedule he (by cases b <;> rfl) rfl
  | use =>
    left
    simp only [Life5.step, if_neg ha]
    exact h.schedule he rfl rfl
  | answer ok =>
    left
    simp only [Life5.step, if_neg ha]
    have := h.answer he ok
    exact ⟨this.1, by simp [this.2]⟩
  | turn due => exact .inl ⟨h.turn he.1 he.2 due, by simp [Life5.step]⟩
  | run x => exact h.run ws x
  | opened spoiled x =>
    left
    have hn : c.net = .dialing := he.1
    obtain ⟨hp, h1, h2⟩ := h.opened hn x (decide (c.desired = .connected ∧ x.ok = true))
    simp only [Life5.step, if_neg ha, dropHandshake_eq h (by rw [hn]; simp)]
    split
    · refine ⟨h1, ?_⟩
      cases c.handshake <;> simp
    · rw [if_neg (by simp [hp])]
      refine ⟨?_, ?_⟩
      · simpa using h2
      · cases c.handshake <;> simp
  | failed x =>
    left
    have hn : c.net ≠ .none := by rcases he with he | he <;> (rw [he]; simp)
    simp only [Life5.step, if_neg ha, dropHandshake_eq h hn]
    refine ⟨h.down hn x rfl, ?_⟩
    cases c.handshake <;> simp
  | closed x =>
    left
    have hn : c.net = .up := he
    simp only [Life5.step, if_neg ha]
    have hk := h.noHandshake (by rw [hn]; simp)
    have hq := h.core.request
    have hz : ¬ (c.phase = .connecting ∧ c.net = .none ∨ c.handshake = true) := by rw [hn, hk]; simp
    rw [if_neg hz] at hq
    refine ⟨h.down (by rw [hn]; simp) x ?_, by simp⟩
    rw [hk, hq]
  | io x =>
    left
    simp only [Life5.step, if_neg ha]
    exact ⟨h.io x _, by simp⟩

theorem Dead.step {c : Client} (h : Dead c) {ws : Bool} {e : Event} (he : Enabled ws c e) :
    Dead (step ws c e).1 ∧ (step ws c e).2 = [] ∧ (step ws c e).1.phase = c.phase ∧ (step ws c e).1.refs = c.refs := by
  obtain ⟨h1, h2, h3, h4, h5, h6, h7, h8, h9, h10, h11⟩ := h
  cases e with
  | acquire => have : 0 < c.user := he; omega
  | release => have : 0 < c.user := he; omega
  | change b => have : 0 < c.user := he; omega
  | use => have : 0 < c.user := he; omega
  | answer ok => have : c.owed = true := he; rw [h3] at this; cases this
  | turn due => exact ⟨⟨h1, h2, h3, h4, h6, rfl, by simp [Life5.step, h7], by simp [Life5.step, h7], h9, h10, h11⟩, rfl, rfl, rfl⟩
  | run x =>
    have : c.run ws x = (c, []) := by unfold Client.run; rw [h5]; simp [h8]
    rw [show Life5.step ws c (.run x) = c.run ws x from rfl, this]
    exact ⟨⟨h1, h2, h3, h4, h5, h6, h7, h8, h9, h10, h11⟩, rfl, rfl, rfl⟩
  | opened s x => have := he.1; rw [h4] at this; cases this
  | failed x => rcases he with he | he <;> (rw [h4] at he; cases he)
  | closed x => have : c.net = .up := he; rw [h4] at this; cases this
  | io x => have : c.net = .up := he; rw [h4] at this; cases this

theorem Inv.init : Inv {} :=
  ⟨rfl, ⟨rfl, by decide, by decide, by decide, by decide, rfl, by decide, by decide, by decide, by decide, rfl⟩,
    ⟨by decide, by decide⟩, ⟨by decide, by decide⟩⟩

/-- What was seen is what the state says. -/
structure Seen (c : Client) (log : List Entry) : Prop where
  held : Held log c.user
  attempting : attempting log = decide (c.phase = .connecting ∨ c.phase = .live ∨ c.phase = .closing)
  handshaking : handshaking log = decide (0 < c.request)
  asked : log.count .asked = log.count .requestFreed + c.request

theorem attempting_append (a b : List Entry) : attempting (a ++ b) = b.foldl (fun r e => match e with
    | .attempt => true
    | .failed => false
    | .closed => false
    | _ => r) (attempting a) := List.foldl_append

theorem handshaking_append (a b : List Entry) : handshaking (a ++ b) = b.foldl (fun r e => match e with
    | .asked => true
    | .opened => false
    | .spoiled => false
    | .failed => false
    | _ => r) (handshaking a) := List.foldl_append

/-- Nothing that matters was seen. -/
theorem Seen.same {c c' : Client} {log : List Entry} (h : Seen c log) (hu : c'.user = c.user)
    (hp : (c'.phase = .connecting ∨ c'.phase = .live ∨ c'.phase = .closing) ↔
      (c.phase = .connecting ∨ c.phase = .live ∨ c.phase = .closing)) (hq : c'.request = c.request) : Seen c' log := by
  obtain ⟨h1, h2, h3, h4⟩ := h
  refine ⟨by rw [hu]; exact h1, by rw [h2]; simp [hp], by rw [hq]; exact h3, by rw [hq]; exact h4⟩

theorem Seen.reevaluate {c : Client} {log : List Entry} (h : Seen c log) (x : Choice) : Seen (c.reevaluate x) log := by
  obtain ⟨t, d, hx⟩ := reevaluate_fields c x
  rw [hx]; exact h.same rfl Iff.rfl rfl

theorem Seen.release {c : Client} {log : List Entry} (h : Seen c log) : Seen c.release.1 (log ++ c.release.2) := by
  obtain ⟨h1, h2, h3, h4⟩ := h
  unfold Client.release
  unfold Held at *
  split
  · refine ⟨?_, ?_, ?_, ?_⟩
    · simpa [Held] using h1
    · simpa [attempting_append] using h2
    · simpa [handshaking_append] using h3
    · simpa using h4
  · split
    · refine ⟨?_, ?_, ?_, ?_⟩
      · simpa [Held] using h1
      · simpa [attempting_append] using h2
      · simpa [handshaking_append] using h3
      · simpa using h4
    · rw [List.append_nil]; exact ⟨h1, h2, h3, h4⟩

theorem tryClose_seen {c : Client} {log : List Entry} (h : Seen c log) (b : Bool) :
    Seen (if b ∧ c.phase = .live then { c with phase := .closing } else c) log := by
  split
  · rename_i hx
    exact h.same rfl (by simp [hx.2]) rfl
  · exact h

theorem Seen.change {c : Client} {log : List Entry} (h : Seen c log) (d : Desired) (x : Choice) :
    Seen (c.change d x).1 (log ++ (c.change d x).2) := by
  unfold Client.change
  simp only
  have hm : Seen (if c.desired = d then c else
      (if d = .stopped ∧ (!x.ok) = true ∧ c.phase = .live then { c with desired := d, phase := .closing } else { c with desired := d } : Client).reevaluate x)
      log := by
    split
    · exact h
    · refine Seen.reevaluate ?_ x
      split
      · rename_i hx; exact h.same rfl (by simp [hx.2.2]) rfl
      · exact h.same rfl Iff.rfl rfl
  split
  · rw [List.append_nil]; exact hm
  · exact hm.release

theorem Seen.connect {c : Client} {log : List Entry} (h : Seen c log) (hq : c.request = 0) (ws : Bool) (x : Choice) : Seen (c.connect ws x).1 (log ++ (c.connect ws x).2) := by
  obtain ⟨h1, h2, h3, h4⟩ := h
  unfold Held at h1
  unfold Client.connect
  split
  · refine ⟨?_, ?_, ?_, ?_⟩
    · simpa [Held] using h1
    · simp [attempting_append]
    · simp [handshaking_append, hq]
    · simpa using h4
  · split
    · refine ⟨?_, ?_, ?_, ?_⟩
      · simpa [Held] using h1
      · simp [attempting_append]
      · simp [handshaking_append]
      · simp [h4, hq]
    · refine ⟨?_, ?_, ?_, ?_⟩
      · simpa [Held] using h1
      · simp [attempting_append]
      · simpa [handshaking_append] using h3
      · simpa using h4

theorem Inv.noRequest {c : Client} (h : Inv c) (hp : c.phase ≠ .connecting) : c.request = 0 := by
  have hn : c.net ≠ .dialing := by
    intro hn
    cases hx : c.phase
    · have := h.core.netNone (.inl hx); rw [hn] at this; cases this
    · exact hp hx
    · have := h.core.netUp.1 (.inl hx); rw [hn] at this; cases this
    · have := h.core.netUp.1 (.inr hx); rw [hn] at this; cases this
    · have := h.core.netNone (.inr hx); rw [hn] at this; cases this
  have hk := h.noHandshake hn
  rw [h.core.request, hk]
  simp [hp]

theorem Seen.serve {c : Client} {log : List Entry} (h : Inv c) (hs : Seen c log) (ws : Bool) (x : Choice) :
    Seen (({ c with due := false } : Client).service ws x).1 (log ++ (({ c with due := false } : Client).service ws x).2) := by
  have h1 : Seen { c with due := false } log := hs.same rfl Iff.rfl rfl
  unfold Client.service
  split
  · rename_i hp
    have hp : c.phase = .stopped := hp
    have hq := h.noRequest (by rw [hp]; simp)
    split
    · exact (h1.connect hq ws x).reevaluate x
    · obtain ⟨k1, k2, k3, k4⟩ := hs
      unfold Held at k1
      refine ⟨?_, ?_, ?_, ?_⟩
      · simpa [Held] using k1
      · simpa [attempting_append] using k2
      · simpa [handshaking_append, hq] using k3
      · simpa [hq] using k4
    · rw [List.append_nil]; exact h1.reevaluate x
  · rename_i hp
    have hp : c.phase = .live := hp
    split
    · rw [List.append_nil]; refine Seen.reevaluate ?_ x; exact h1.same rfl (by simp [hp]) rfl
    · rw [List.append_nil]; exact h1.reevaluate x
  · rename_i hp
    have hp : c.phase = .pendingReconnect := hp
    have hq := h.noRequest (by rw [hp]; simp)
    split
    · rw [List.append_nil]; refine Seen.reevaluate ?_ x; exact h1.same rfl (by simp [hp]) rfl
    · split
      · exact (h1.connect hq ws x).reevaluate x
      · rw [List.append_nil]; exact h1.reevaluate x
  · rw [List.append_nil]; exact h1.reevaluate x

theorem Seen.down {c : Client} {log : List Entry} (h : Seen c log) (x : Choice) {e : Entry} {l : List Entry} {c1 : Client}
    (hl : l = [] ∧ c.request = 0 ∨ l = [.requestFreed] ∧ c.request = 1) (he : e = .failed ∨ e = .closed ∧ c.request = 0) (hu : c1.user = c.user)
    (hq : c1.request = 0) : Seen (c1.down x) (log ++ (l ++ [e])) := by
  unfold Client.down
  refine Seen.reevaluate ?_ x
  obtain ⟨k1, k2, k3, k4⟩ := h
  unfold Held at k1
  have hne : ∀ p : Prop, ∀ [Decidable p], ¬ ((if p then Phase.pendingReconnect else .stopped) = .connecting ∨
      (if p then Phase.pendingReconnect else .stopped) = .live ∨ (if p then Phase.pendingReconnect else .stopped) = .closing) := by
    intro p _; split <;> simp
  refine ⟨?_, ?_, ?_, ?_⟩
  · show Held _ c1.user
    rw [hu]
    rcases hl with ⟨hl, _⟩ | ⟨hl, _⟩ <;> rcases he with he | ⟨he, _⟩ <;> subst hl he <;> simpa [Held] using k1
  · refine Eq.trans ?_ (decide_eq_false (hne _)).symm
    rcases hl with ⟨hl, _⟩ | ⟨hl, _⟩ <;> rcases he with he | ⟨he, _⟩ <;> subst hl he <;> simp [attempting_append]
  · refine Eq.trans ?_ (decide_eq_false (by show ¬ 0 < c1.request; omega)).symm
    rcases hl with ⟨hl, h0⟩ | ⟨hl, h0⟩ <;> rcases he with he | ⟨he, h2⟩ <;> subst hl he
    · simp [handshaking_append]
    · simpa [handshaking_append, h2] using k3
    · simp [handshaking_append]
    · omega
  · show _ = _ + c1.request
    rw [hq]
    rcases hl with ⟨hl, h0⟩ | ⟨hl, h0⟩ <;> rcases he with he | ⟨he, _⟩ <;> subst hl he <;> simp [k4, h0]

theorem Seen.transformed {c : Client} {log : List Entry} (h : Inv c) (hs : Seen c log) {ok : Bool} {rest : List Task}
    (hr : c.running = .transformed ok :: rest) (x : Choice) :
    Seen (({ c with running := rest } : Client).transformed ok x).1 (log ++ (({ c with running := rest } : Client).transformed ok x).2) := by
  obtain ⟨k1, k2, k3, k4⟩ := h.head hr rfl
  simp only [Task.isTransformed, if_true] at k3
  have hp : c.phase = .connecting ∧ c.net = .none := by
    refine Decidable.byContradiction fun hx => ?_
    rw [if_neg hx] at k3; omega
  have hh := h.noHandshake (by rw [hp.2]; simp)
  have hq : c.request = 1 := by rw [h.core.request, if_pos (.inl hp)]
  rw [transformed_eq (c := { c with running := rest }) hh hq]
  split
  · have h1 : Seen { c with running := rest, net := .dialing, handshake := true } (log ++ [.dialed]) := by
      obtain ⟨k1, k2, k3, k4⟩ := hs
      unfold Held at k1
      refine ⟨?_, ?_, ?_, ?_⟩
      · simpa [Held] using k1
      · simpa [attempting_append] using k2
      · simpa [handshaking_append] using k3
      · simpa using k4
    have := h1.release
    simpa using this
  · have h1 : Seen { ({ c with running := rest } : Client).down x with request := 0 } (log ++ [.failed, .requestFreed]) := by
      obtain ⟨t, d, hx⟩ := reevaluate_fields { c with
        running := rest
        phase := if c.desired = .connected then .pendingReconnect else .stopped } x
      have hne : ¬ ((if c.desired = .connected then Phase.pendingReconnect else .stopped) = .connecting ∨
          (if c.desired = .connected then Phase.pendingReconnect else .stopped) = .live ∨
          (if c.desired = .connected then Phase.pendingReconnect else .stopped) = .closing) := by
        split <;> simp
      unfold Client.down
      simp only
      rw [hx]
      obtain ⟨k1, k2, k3, k4⟩ := hs
      unfold Held at k1
      refine ⟨?_, ?_, ?_, ?_⟩
      · simpa [Held] using k1
      · refine Eq.trans ?_ (decide_eq_false hne).symm
        simp [attempting_append]
      · simp [handshaking_append]
      · simp [k4, hq]
    have := h1.release
    simpa using this

theorem Seen.step {c : Client} {log : List Entry} (h : Inv c) (hs : Seen c log) {ws : Bool} {e : Event} (he : Enabled ws c e) :
    Seen (step ws c e).1 (log ++ (step ws c e).2) := by
  have ha : ¬ ((!c.alive) = true) := by simp [h.alive]
  have hs0 := hs
  obtain ⟨k1, k2, k3, k4⟩ := hs0
  unfold Held at k1
  cases e with
  | acquire =>
    have hr : c.refs ≠ 0 := by have := h.core.refs; have : 0 < c.user := he; omega
    simp only [Life5.step, if_neg ha, Client.acquire, hr, if_false]
    refine ⟨?_, ?_, ?_, ?_⟩
    · simp [Held]; omega
    · simpa [attempting_append] using k2
    · simpa [handshaking_append] using k3
    · simpa using k4
  | release =>
    have hu0 : 0 < c.user := he
    simp only [Life5.step, if_neg ha]
    have h1 : Seen { c with user := c.user - 1 } (log ++ [.released]) := by
      refine ⟨?_, ?_, ?_, ?_⟩
      · simp [Held]; omega
      · simpa [attempting_append] using k2
      · simpa [handshaking_append] using k3
      · simpa using k4
    have h2 := h1.release
    have hu : c.release.1.user = c.user := by
      unfold Client.release; split
      · rfl
      · split <;> rfl
    rw [release_user c (by have := h.core.refs; omega)] at h2
    rw [hu]
    simpa using h2
  | change b =>
    have hr : c.refs ≠ 0 := by have := h.core.refs; have : 0 < c.user := he; omega
    simp only [Life5.step, if_neg ha, Client.schedule, Client.acquire, hr, if_false, List.append_nil]
    exact hs.same rfl Iff.rfl rfl
  | use =>
    have hr : c.refs ≠ 0 := by have := h.core.refs; have : 0 < c.user := he; omega
    simp only [Life5.step, if_neg ha, Client.schedule, Client.acquire, hr, if_false, List.append_nil]
    exact hs.same rfl Iff.rfl rfl
  | answer ok =>
    simp only [Life5.step, if_neg ha, Client.schedule, Client.acquire]
    split
    · refine ⟨?_, ?_, ?_, ?_⟩
      · simpa [Held] using k1
      · simpa [attempting_append] using k2
      · simpa [handshaking_append] using k3
      · simpa using k4
    · refine ⟨?_, ?_, ?_, ?_⟩
      · simpa [Held] using k1
      · simpa [attempting_append] using k2
      · simpa [handshaking_append] using k3
      · simpa using k4
  | turn due =>
    simp only [Life5.step, List.append_nil]
    exact hs.same rfl Iff.rfl rfl
  | run x =>
    show Seen (c.run ws x).1 (log ++ (c.run ws x).2)
    cases hr : c.running with
    | nil =>
      rw [run_nil hr h.alive]
      split
      · rw [List.append_nil]; exact hs
      · exact Seen.serve h hs ws x
    | cons t rest =>
      have h1 : Seen { c with running := rest } log := hs.same rfl Iff.rfl rfl
      cases t with
      | change d => rw [run_change hr h.alive]; exact h1.change d x
      | use => rw [run_use hr h.alive]; exact ((tryClose_seen h1 (!x.ok)).reevaluate x).release
      | transformed ok => rw [run_transformed hr h.alive]; exact Seen.transformed h hs hr x
  | opened spoiled x =>
    have hn : c.net = .dialing := he.1
    obtain ⟨hp, _, _⟩ := h.opened hn x true
    have hq := h.core.request
    have hz : ¬ (c.phase = .connecting ∧ c.net = .none) := by rw [hn]; simp
    simp only [hz, false_or] at hq
    simp only [Life5.step, if_neg ha, dropHandshake_eq h (by rw [hn]; simp)]
    split
    · cases hh : c.handshake
      · rw [hh] at hq; simp at hq
        refine ⟨?_, ?_, ?_, ?_⟩
        · simpa [Held] using k1
        · simpa [attempting_append] using k2
        · simp [handshaking_append]
        · simpa [hq] using k4
      · rw [hh] at hq; simp at hq
        refine ⟨?_, ?_, ?_, ?_⟩
        · simpa [Held] using k1
        · simpa [attempting_append] using k2
        · simp [handshaking_append]
        · simpa [hq] using k4
    · rw [if_neg (by simp [hp])]
      refine Seen.reevaluate ?_ x
      cases hh : c.handshake
      · rw [hh] at hq; simp at hq
        refine ⟨?_, ?_, ?_, ?_⟩
        · simpa [Held] using k1
        · have : Life5.attempting log = true := by rw [k2, hp]; rfl
          simp [attempting_append, this]
        · simp [handshaking_append]
        · simpa [hq] using k4
      · rw [hh] at hq; simp at hq
        refine ⟨?_, ?_, ?_, ?_⟩
        · simpa [Held] using k1
        · have : Life5.attempting log = true := by rw [k2, hp]; rfl
          simp [attempting_append, this]
        · simp [handshaking_append]
        · simpa [hq] using k4
  | failed x =>
    have hn : c.net ≠ .none := by rcases he with he | he <;> (rw [he]; simp)
    have hq := h.core.request
    have hz : ¬ (c.phase = .connecting ∧ c.net = .none) := fun hx => hn hx.2
    simp only [hz, false_or] at hq
    simp only [Life5.step, if_neg ha, dropHandshake_eq h hn]
    refine hs.down x ?_ (.inl rfl) rfl rfl
    cases hh : c.handshake
    · rw [hh] at hq; simp at hq; exact .inl ⟨by simp, hq⟩
    · rw [hh] at hq; simp at hq; exact .inr ⟨by simp, hq⟩
  | closed x =>
    have hn : c.net = .up := he
    have hp : c.phase ≠ .connecting := fun hx => h.core.netConnecting hx hn
    have hq := h.noRequest hp
    simp only [Life5.step, if_neg ha]
    exact hs.down (l := []) x (.inl ⟨rfl, hq⟩) (.inr ⟨rfl, hq⟩) rfl hq
  | io x =>
    simp only [Life5.step, if_neg ha, List.append_nil]
    exact (tryClose_seen hs (!x.ok)).reevaluate x

theorem Seen.init : Seen {} [] := ⟨rfl, rfl, rfl, rfl⟩

/-- What holds always. -/
structure Good (c : Client) (log : List Entry) : Prop where
  seen : Seen c log
  bad : Entry.bad ∉ log
  state : (Inv c ∧ Entry.destroyed ∉ log) ∨ (Dead c ∧ ∃ l, log = l ++ [.destroyed] ∧ Entry.destroyed ∉ l)

/-- What tasks can show. -/
def shown : List Entry := [.zero, .bad, .attempt, .failed, .asked, .dialed, .requestFreed]

theorem shown_release (c : Client) : ∀ e ∈ c.release.2, e ∈ shown := by
  unfold Client.release
  split
  · simp [shown]
  · split <;> simp [shown]

theorem shown_connect (ws : Bool) (c : Client) (x : Choice) : ∀ e ∈ (c.connect ws x).2, e ∈ shown := by
  unfold Client.connect
  split
  · simp [shown]
  · split <;> simp [shown]

theorem Inv.pending {c : Client} (h : Inv c) {ok : Bool} {rest : List Task} (hr : c.running = .transformed ok :: rest) :
    (c.phase = .connecting ∧ c.net = .none) ∧ c.handshake = false ∧ c.request = 1 := by
  obtain ⟨k1, k2, k3, k4⟩ := h.head hr rfl
  simp only [Task.isTransformed, if_true] at k3
  have hp : c.phase = .connecting ∧ c.net = .none := by
    refine Decidable.byContradiction fun hx => ?_
    rw [if_neg hx] at k3; omega
  exact ⟨hp, h.noHandshake (by rw [hp.2]; simp), by rw [h.core.request, if_pos (.inl hp)]⟩

theorem shown_run {c : Client} (h : Inv c) (ws : Bool) (x : Choice) :
    ∀ e ∈ (c.run ws x).2, e ∈ shown ∨ e = .destroyed ∧ (c.run ws x).1.alive = false := by
  have ha := h.alive
  cases hr : c.running with
  | nil =>
    rw [run_nil hr ha]
    split
    · simp
    · unfold Client.service
      split
      · split
        · intro e he; exact .inl (shown_connect _ _ _ e he)
        · intro e he; right; simpa using he
        · simp
      · split <;> simp
      · split
        · simp
        · split
          · intro e he; exact .inl (shown_connect _ _ _ e he)
          · simp
      · simp
  | cons t rest =>
    intro e he
    left
    cases t with
    | change d =>
      rw [run_change hr ha] at he
      unfold Client.change at he
      simp only at he
      split at he
      · simp at he
      · exact shown_release _ e he
    | use => rw [run_use hr ha] at he; exact shown_release _ e he
    | transformed ok =>
      obtain ⟨_, hh, hq⟩ := h.pending hr
      rw [run_transformed hr ha, transformed_eq (c := { c with running := rest }) hh hq] at he
      split at he
      · rcases List.mem_cons.1 he with he | he
        · subst he; simp [shown]
        · exact shown_release _ e he
      · rcases List.mem_append.1 he with he | he
        · simp at he; rcases he with he | he <;> (subst he; simp [shown])
        · exact shown_release _ e he

theorem destroyed_step {c : Client} (hi : Inv c) {ws : Bool} {e : Event} (he : Enabled ws c e)
    (h : Entry.destroyed ∈ (step ws c e).2) : (step ws c e).1.alive = false := by
  have ha' : ¬ ((!c.alive) = true) := by simp [hi.alive]
  cases e with
  | acquire =>
    simp only [step, if_neg ha', Client.acquire] at h
    split at h <;> simp at h
  | release =>
    simp only [step, if_neg ha', List.mem_cons, reduceCtorEq, false_or] at h
    have := shown_release _ _ h
    simp [shown] at this
  | change b =>
    simp only [step, if_neg ha', Client.schedule, Client.acquire] at h
    split at h <;> simp at h
  | use =>
    simp only [step, if_neg ha', Client.schedule, Client.acquire] at h
    split at h <;> simp at h
  | answer ok =>
    simp only [step, if_neg ha', Client.schedule, Client.acquire] at h
    split at h <;> simp at h
  | turn due => simp [step] at h
  | run x =>
    rcases shown_run hi ws x _ h with hx | hx
    · simp [shown] at hx
    · exact hx.2
  | opened s x =>
    simp only [step, if_neg ha', dropHandshake_eq hi (by rw [he.1]; simp)] at h
    split at h
    · cases hh : c.handshake <;> simp [hh] at h
    · split at h <;> cases hh : c.handshake <;> simp [hh] at h
  | failed x =>
    have hn : c.net ≠ .none := by rcases he with he | he <;> (rw [he]; simp)
    simp only [step, if_neg ha', dropHandshake_eq hi hn] at h
    cases hh : c.handshake <;> simp [hh] at h
  | closed x => simp [step, hi.alive] at h
  | io x => simp [step, hi.alive] at h

theorem Good.step {c : Client} {log : List Entry} (h : Good c log) {ws : Bool} {e : Event} (he : Enabled ws c e) :
    Good (step ws c e).1 (log ++ (step ws c e).2) := by
  obtain ⟨h1, h2, h3⟩ := h
  rcases h3 with ⟨hi, hd⟩ | ⟨hi, l, hl, hd⟩
  · have hs := Seen.step hi h1 he
    rcases hi.step he with ⟨ha, hb⟩ | ⟨ha, hb⟩
    · refine ⟨hs, by simp [h2, hb], .inl ⟨ha, ?_⟩⟩
      intro hx
      rcases List.mem_append.1 hx with hx | hx
      · exact hd hx
      · have := destroyed_step hi he hx
        rw [ha.alive] at this; cases this
    · refine ⟨hs, by simp [h2, hb], .inr ⟨ha, log, by rw [hb], hd⟩⟩
  · obtain ⟨ha, hb, hp, _⟩ := hi.step he
    rw [hb, List.append_nil]
    refine ⟨?_, h2, .inr ⟨ha, l, hl, hd⟩⟩
    exact h1.same (by rw [ha.user, hi.user]) (by rw [hp]) (by rw [ha.request, hi.request])

theorem Good.of {ws : Bool} {c : Client} {log : List Entry} (h : Reachable ws c log) : Good c log := by
  induction h with
  | init => exact ⟨Seen.init, by simp, .inl ⟨Inv.init, by simp⟩⟩
  | step _ e he ih => exact ih.step he

/-- How often the reference count has become 0. -/
def Counted (c : Client) (es : List Entry) (c' : Client) : Prop :=
  es.count .zero + (if c.refs = 0 then 1 else 0) = es.count .revived + (if c'.refs = 0 then 1 else 0)

theorem counted_release (c : Client) : Counted c c.release.2 c.release.1 := by
  unfold Client.release Counted
  split
  · simp
  · split
    · simp_all
    · rename_i h1 h2
      have : ¬ c.refs - 1 = 0 := by omega
      simp [this]

theorem counted_none {c c' : Client} {es : List Entry} (hr : c'.refs = c.refs) (h1 : Entry.zero ∉ es) (h2 : Entry.revived ∉ es) :
    Counted c es c' := by
  unfold Counted
  rw [hr, List.count_eq_zero.2 h1, List.count_eq_zero.2 h2]

theorem Counted.pre {c c1 c' : Client} {es fs : List Entry} (h : Counted c1 es c') (hr : c1.refs = c.refs) (h1 : Entry.zero ∉ fs)
    (h2 : Entry.revived ∉ fs) : Counted c (fs ++ es) c' := by
  unfold Counted at *
  rw [List.count_append, List.count_append, List.count_eq_zero.2 h1, List.count_eq_zero.2 h2, ← hr]
  omega

theorem reevaluate_refs (c : Client) (x : Choice) : (c.reevaluate x).refs = c.refs := by
  obtain ⟨t, d, hx⟩ := reevaluate_fields c x
  rw [hx]

theorem refs_ite {p : Prop} [Decidable p] {a b : Client} {n : Nat} (ha : a.refs = n) (hb : b.refs = n) : (if p then a else b).refs = n := by
  split
  · exact ha
  · exact hb

theorem counted_connect (ws : Bool) (c : Client) (x : Choice) : Counted c (c.connect ws x).2 ((c.connect ws x).1.reevaluate x) := by
  unfold Client.connect
  split
  · exact counted_none (by rw [reevaluate_refs]) (by simp) (by simp)
  · split <;> exact counted_none (by rw [reevaluate_refs]) (by simp) (by simp)

theorem counted_service (ws : Bool) (c : Client) (x : Choice) : Counted c (c.service ws x).2 (c.service ws x).1 := by
  unfold Client.service
  split
  · split
    · exact counted_connect ws c x
    · exact counted_none rfl (by simp) (by simp)
    · exact counted_none (by rw [reevaluate_refs]) (by simp) (by simp)
  · split <;> exact counted_none (by rw [reevaluate_refs]) (by simp) (by simp)
  · split
    · exact counted_none (by rw [reevaluate_refs]) (by simp) (by simp)
    · split
      · exact counted_connect ws c x
      · exact counted_none (by rw [reevaluate_refs]) (by simp) (by simp)
  · exact counted_none (by rw [reevaluate_refs]) (by simp) (by simp)

theorem counted_run {c : Client} (h : Inv c) (ws : Bool) (x : Choice) : Counted c (c.run ws x).2 (c.run ws x).1 := by
  cases hr : c.running with
  | nil =>
    rw [run_nil hr h.alive]
    split
    · exact counted_none rfl (by simp) (by simp)
    · exact (counted_service ws { c with due := false } x).pre (fs := []) rfl (by simp) (by simp)
  | cons t rest =>
    cases t with
    | change d =>
      rw [run_change hr h.alive]
      unfold Client.change
      simp only
      have hm : (if c.desired = d then { c with running := rest } else
          (if d = .stopped ∧ (!x.ok) = true ∧ c.phase = .live then { c with running := rest, desired := d, phase := .closing }
            else { c with running := rest, desired := d } : Client).reevaluate x).refs = c.refs :=
        refs_ite rfl (by rw [reevaluate_refs]; exact refs_ite rfl rfl)
      split
      · exact counted_none hm (by simp) (by simp)
      · exact (counted_release _).pre (fs := []) hm (by simp) (by simp)
    | use =>
      rw [run_use hr h.alive]
      refine (counted_release _).pre (fs := []) ?_ (by simp) (by simp)
      rw [reevaluate_refs]; exact refs_ite rfl rfl
    | transformed ok =>
      rw [run_transformed hr h.alive]
      obtain ⟨k1, k2, k3, k4⟩ := h.head hr rfl
      simp only [Task.isTransformed, if_true] at k3
      have hp : c.phase = .connecting ∧ c.net = .none := by
        refine Decidable.byContradiction fun hx => ?_
        rw [if_neg hx] at k3; omega
      have hh := h.noHandshake (by rw [hp.2]; simp)
      have hq : c.request = 1 := by rw [h.core.request, if_pos (.inl hp)]
      rw [transformed_eq (c := { c with running := rest }) hh hq]
      split
      · exact (counted_release _).pre (fs := [.dialed]) rfl (by simp) (by simp)
      · refine (counted_release _).pre (fs := [.failed, .requestFreed]) ?_ (by simp) (by simp)
        exact reevaluate_refs _ x

theorem counted_step {c : Client} (h : Inv c) {ws : Bool} {e : Event} (he : Enabled ws c e) :
    Counted c (step ws c e).2 (step ws c e).1 ∧ (Entry.revived ∈ (step ws c e).2 → c.owed = true ∧ c.refs = 0) := by
  have ha : ¬ ((!c.alive) = true) := by simp [h.alive]
  have hu : 0 < c.user → c.refs ≠ 0 := by intro hu; have := h.core.refs; omega
  cases e with
  | acquire =>
    simp only [step, if_neg ha, Client.acquire, hu he, if_false]
    refine ⟨?_, by simp⟩
    unfold Counted; simp [hu he]
  | release =>
    simp only [step, if_neg ha]
    have := (counted_release c).pre (fs := [.released]) rfl (by simp) (by simp)
    refine ⟨this, ?_⟩
    simp only [List.mem_cons, reduceCtorEq, false_or]
    intro hx
    unfold Client.release at hx
    split at hx
    · simp at hx
    · split at hx <;> simp at hx
  | change b =>
    simp only [step, if_neg ha, Client.schedule, Client.acquire, hu he, if_false]
    refine ⟨?_, by simp⟩
    unfold Counted; simp [hu he]
  | use =>
    simp only [step, if_neg ha, Client.schedule, Client.acquire, hu he, if_false]
    refine ⟨?_, by simp⟩
    unfold Counted; simp [hu he]
  | answer ok =>
    have ho : c.owed = true := he
    simp only [step, if_neg ha, Client.schedule, Client.acquire]
    split
    · rename_i hr
      exact ⟨by unfold Counted; simp [show c.refs = 0 from hr], fun _ => ⟨ho, hr⟩⟩
    · rename_i hr
      exact ⟨by unfold Counted; simp [show ¬ c.refs = 0 from hr], by simp⟩
  | turn due => exact ⟨counted_none rfl (by simp [step]) (by simp [step]), by simp [step]⟩
  | run x =>
    refine ⟨counted_run h ws x, fun hx => ?_⟩
    rcases shown_run h ws x _ hx with hx | hx
    · simp [shown] at hx
    · simp at hx
  | opened s x =>
    simp only [step, if_neg ha, dropHandshake_eq h (by rw [he.1]; simp)]
    split
    · cases hh : c.handshake <;> exact ⟨counted_none rfl (by simp) (by simp), by simp⟩
    · split
      · cases hh : c.handshake <;> exact ⟨counted_none rfl (by simp) (by simp), by simp⟩
      · cases hh : c.handshake <;> exact ⟨counted_none (by rw [reevaluate_refs]) (by simp) (by simp), by simp⟩
  | failed x =>
    have hn : c.net ≠ .none := by rcases he with he | he <;> (rw [he]; simp)
    simp only [step, if_neg ha, dropHandshake_eq h hn]
    cases hh : c.handshake <;> exact ⟨counted_none (reevaluate_refs _ x) (by simp) (by simp), by simp⟩
  | closed x =>
    simp only [step, if_neg ha]
    exact ⟨counted_none (reevaluate_refs _ x) (by simp) (by simp), by simp⟩
  | io x =>
    simp only [step, if_neg ha]
    exact ⟨counted_none (by rw [reevaluate_refs]; exact refs_ite rfl rfl) (by simp) (by simp), by simp⟩

/-- How often the reference count has become 0, in all. -/
theorem Reachable.counted {ws : Bool} {c : Client} {log : List Entry} (h : Reachable ws c log) :
    log.count .zero = log.count .revived + (if c.refs = 0 then 1 else 0) := by
  induction h with
  | init => rfl
  | @step c log h e he ih =>
    rw [List.count_append, List.count_append]
    rcases (Good.of h).state with ⟨hi, _⟩ | ⟨hi, _⟩
    · have := (counted_step hi he).1
      unfold Counted at this
      omega
    · obtain ⟨_, hb, _, hr⟩ := hi.step he
      rw [hb, hr]
      simpa using ih

theorem reevaluate_desired (c : Client) (x : Choice) : (c.reevaluate x).desired = c.desired := by
  obtain ⟨t, d, hx⟩ := reevaluate_fields c x
  rw [hx]

theorem reevaluate_phase (c : Client) (x : Choice) : (c.reevaluate x).phase = c.phase := by
  obtain ⟨t, d, hx⟩ := reevaluate_fields c x
  rw [hx]

theorem release_desired (c : Client) : c.release.1.desired = c.desired := by
  unfold Client.release
  split
  · rfl
  · split <;> rfl

theorem attempt_release (c : Client) : Entry.attempt ∉ c.release.2 := by
  unfold Client.release
  split
  · simp
  · split <;> simp

theorem tryClose_desired (c : Client) (b : Bool) :
    (if b ∧ c.phase = .live then { c with phase := .closing } else c : Client).desired = c.desired := by
  split <;> rfl

/-- A client that is to end makes no connection attempts, and stays so. -/
theorem Inv.final {c : Client} (h : Inv c) (hd : c.desired = .terminated) {ws : Bool} {e : Event} (he : Enabled ws c e) :
    (Life5.step ws c e).1.desired = .terminated ∧ Entry.attempt ∉ (Life5.step ws c e).2 := by
  have ha : ¬ ((!c.alive) = true) := by simp [h.alive]
  have hu : c.user = 0 := (h.core.last (.inr hd)).1
  cases e with
  | acquire => have : 0 < c.user := he; omega
  | release => have : 0 < c.user := he; omega
  | change b => have : 0 < c.user := he; omega
  | use => have : 0 < c.user := he; omega
  | answer ok =>
    simp only [Life5.step, if_neg ha, Client.schedule, Client.acquire]
    refine ⟨hd, ?_⟩
    split <;> simp
  | turn due => exact ⟨hd, by simp [Life5.step]⟩
  | run x =>
    show (c.run ws x).1.desired = _ ∧ _ ∉ (c.run ws x).2
    cases hr : c.running with
    | nil =>
      rw [run_nil hr h.alive]
      split
      · exact ⟨hd, by simp⟩
      · unfold Client.service
        simp only [hd]
        split
        · exact ⟨rfl, by simp⟩
        · exact ⟨by simp [reevaluate_desired], by simp⟩
        · exact ⟨by simp [reevaluate_desired], by simp⟩
        · exact ⟨by simp [reevaluate_desired], by simp⟩
    | cons t rest =>
      cases t with
      | change d =>
        by_cases hx : d = .terminated
        · subst hx
          rw [run_change hr h.alive]
          unfold Client.change
          simp [hd]
        · have ht : (Task.change d).holds = true := by cases d <;> first | rfl | exact absurd rfl hx
          have := ((h.head hr ht).2.2.2 hd).1
          cases this
      | use =>
        have := ((h.head hr rfl).2.2.2 hd).1
        cases this
      | transformed ok =>
        obtain ⟨_, hh, hq⟩ := h.pending hr
        rw [run_transformed hr h.alive, transformed_eq (c := { c with running := rest }) hh hq]
        rw [if_neg (by simp [hd])]
        refine ⟨?_, ?_⟩
        · rw [release_desired]
          show (Client.reevaluate _ x).desired = _
          rw [reevaluate_desired]; exact hd
        · simp [attempt_release]
  | opened s x =>
    simp only [Life5.step, if_neg ha, dropHandshake_eq h (by rw [he.1]; simp)]
    split
    · cases hh : c.handshake <;> exact ⟨hd, by simp⟩
    · split
      · cases hh : c.handshake <;> exact ⟨hd, by simp⟩
      · cases hh : c.handshake <;> exact ⟨by rw [reevaluate_desired]; exact hd, by simp⟩
  | failed x =>
    have hn : c.net ≠ .none := by rcases he with he | he <;> (rw [he]; simp)
    simp only [Life5.step, if_neg ha, dropHandshake_eq h hn]
    cases hh : c.handshake <;> exact ⟨by unfold Client.down; rw [reevaluate_desired]; exact hd, by simp⟩
  | closed x =>
    simp only [Life5.step, if_neg ha]
    exact ⟨by unfold Client.down; rw [reevaluate_desired]; exact hd, by simp⟩
  | io x =>
    simp only [Life5.step, if_neg ha]
    refine ⟨?_, by simp⟩
    rw [reevaluate_desired, tryClose_desired]; exact hd

/-- The user has no reference, and what they asked for is done. -/
theorem Inv.leaving {c : Client} (h : Inv c) (hu : c.user = 0) (ht : c.tasks = []) : c.desired = .terminated := by
  have := h.core.gone rfl hu (by rw [ht]; rfl)
  rw [ht] at this
  rcases this with hx | hx
  · cases hx
  · exact hx

theorem Later.reachable {ws : Bool} {c d : Client} {log more : List Entry} (h : Later ws c more d) (hr : Reachable ws c log) :
    Reachable ws d (log ++ more) := by
  induction h with
  | here => rw [List.append_nil]; exact hr
  | step _ e he ih => rw [← List.append_assoc]; exact .step ih e he

theorem Later.final {ws : Bool} {c d : Client} {log more : List Entry} (h : Later ws c more d) (hr : Reachable ws c log)
    (hc : Inv c → c.desired = .terminated) : Entry.attempt ∉ more ∧ (Inv d → d.desired = .terminated) := by
  induction h with
  | here => exact ⟨by simp, hc⟩
  | step h e he ih =>
    have hg := Good.of (h.reachable hr)
    rcases hg.state with ⟨hi, _⟩ | ⟨hi, _⟩
    · have := hi.final (ih.2 hi) he
      exact ⟨by simp [ih.1, this.2], fun _ => this.1⟩
    · obtain ⟨h1, hb, _⟩ := hi.step he
      rw [hb, List.append_nil]
      refine ⟨ih.1, fun hj => ?_⟩
      have := hj.alive; rw [h1.alive] at this; cases this

theorem revived_answer {c : Client} (h : Inv c) {ws : Bool} {e : Event} (he : Enabled ws c e) (hx : Entry.revived ∈ (step ws c e).2) :
    ∃ ok, e = .answer ok := by
  have ha : ¬ ((!c.alive) = true) := by simp [h.alive]
  have hu : 0 < c.user → c.refs ≠ 0 := by intro hu; have := h.core.refs; omega
  cases e with
  | answer ok => exact ⟨ok, rfl⟩
  | acquire => simp [step, h.alive, Client.acquire, hu he] at hx
  | release =>
    simp only [step, if_neg ha, List.mem_cons, reduceCtorEq, false_or] at hx
    have := shown_release _ _ hx
    simp [shown] at this
  | change b => simp [step, h.alive, Client.schedule, Client.acquire, hu he] at hx
  | use => simp [step, h.alive, Client.schedule, Client.acquire, hu he] at hx
  | turn due => simp [step] at hx
  | run x =>
    rcases shown_run h ws x _ hx with hx | hx
    · simp [shown] at hx
    · simp at hx
  | opened s x =>
    simp only [step, if_neg ha, dropHandshake_eq h (by rw [he.1]; simp)] at hx
    split at hx
    · cases hh : c.handshake <;> simp [hh] at hx
    · split at hx <;> cases hh : c.handshake <;> simp [hh] at hx
  | failed x =>
    have hn : c.net ≠ .none := by rcases he with he | he <;> (rw [he]; simp)
    simp only [step, if_neg ha, dropHandshake_eq h hn] at hx
    cases hh : c.handshake <;> simp [hh] at hx
  | closed x => simp [step, h.alive] at hx
  | io x => simp [step, h.alive] at hx

theorem revived_asked {ws : Bool} {c : Client} {log : List Entry} (h : Reachable ws c log) {e : Event} (he : Enabled ws c e)
    (hx : Entry.revived ∈ (step ws c e).2) : Entry.asked ∈ log := by
  obtain ⟨hs, _, ho⟩ := Good.of h
  rcases ho with ⟨hi, _⟩ | ⟨hi, _⟩
  · have h0 := ((counted_step hi he).2 hx).1
    have hone := hi.core.one
    rw [if_pos h0] at hone
    have hp : c.phase = .connecting ∧ c.net = .none := by
      refine Decidable.byContradiction fun hy => ?_
      rw [if_neg hy] at hone; omega
    have hq := hi.core.request
    rw [if_pos (.inl hp)] at hq
    have := hs.asked
    exact List.count_pos_iff.1 (by omega)
  · rw [(hi.step he).2.1] at hx; simp at hx

end Mqtt.Life5
