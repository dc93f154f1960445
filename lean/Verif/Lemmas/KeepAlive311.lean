import Verif.Spec.KeepAlive311

/-! Invariants of a channel of an MQTT 3.1.1 connection about time. -/
namespace Mqtt.KeepAlive311

/-- A sign of life, or a ping left out. -/
def Entry.beat : Entry → Option Nat
  | .accepted t => some t
  | .sent t => some t
  | .ping t => some t
  | .skipped t => some t
  | _ => none

/-- What pings are counted from. -/
def Entry.pulse : Entry → Option Nat
  | .accepted t => some t
  | .ping t => some t
  | _ => none

def beats (l : List Entry) : List Nat := l.filterMap Entry.beat
def pulses (l : List Entry) : List Nat := l.filterMap Entry.pulse

theorem beats_snoc (l : List Entry) (e : Entry) : beats (l ++ [e]) = beats l ++ e.beat.toList := by
  cases e <;> simp [beats, Entry.beat]

theorem pulses_snoc (l : List Entry) (e : Entry) : pulses (l ++ [e]) = pulses l ++ e.pulse.toList := by
  cases e <;> simp [pulses, Entry.pulse]

/-- What does not depend on the requests: the phases of the channel. -/
structure Phases (cfg : Config) (t0 : Nat) (c : Chan) : Prop where
  head : ∃ rest, c.log = .connect t0 :: rest
  start : t0 ≤ c.now
  connack : ∀ t, c.connackAt = some t → c.now ≤ t ∧ t = t0 + cfg.pingTimeout
  connecting : c.phase = .connecting → c.connackAt = some (t0 + cfg.pingTimeout) ∧ c.pingAt = none
  connected : c.phase = .connected → c.pingAt.isSome
  quiet : c.pingAt = none → c.tasks = [] ∧ c.timers = []
  fresh : c.pingAt = none → c.phase ≠ .closed → beats c.log = [] ∧ pulses c.log = []
  closed : c.phase = .closed → c.pingAt = none ∧ c.connackAt = none
  due : ∀ t, c.pingAt = some t → c.now ≤ t ∧ t ≤ c.next

theorem Phases.open (cfg : Config) (now next : Nat) (waiting : Bool) (reqs : List Request) (nextUid : Nat) :
    Phases cfg now (Chan.open cfg now next waiting reqs nextUid) := by
  constructor <;> simp [Chan.open, beats, pulses, Entry.beat, Entry.pulse]

theorem shut_phases {cfg : Config} {t0 : Nat} {c : Chan} (h : Phases cfg t0 c) (why : Reason) :
    Phases cfg t0 (c.shut why) := by
  obtain ⟨rest, hr⟩ := h.head
  exact ⟨⟨rest ++ [.shut c.now why], by simp [Chan.shut, hr]⟩, h.start, by simp [Chan.shut], by simp [Chan.shut],
    by simp [Chan.shut], by simp [Chan.shut], by simp [Chan.shut], by simp [Chan.shut], by simp [Chan.shut]⟩

theorem head_snoc {t0 : Nat} {l : List Entry} (h : ∃ rest, l = .connect t0 :: rest) (e : Entry) :
    ∃ rest, l ++ [e] = .connect t0 :: rest := by
  obtain ⟨rest, hr⟩ := h
  exact ⟨rest ++ [e], by simp [hr]⟩

theorem step_phases {cfg : Config} {t0 : Nat} {c c' : Chan} {e : Event} (h : Phases cfg t0 c) (he : Enabled c e)
    (hs : step cfg c e = .ok c') : Phases cfg t0 c' := by
  have hh := h.head
  have h1 := h.start
  have h2 := h.connack
  have h3 := h.connecting
  have h4 := h.connected
  have h5 := h.quiet
  have h6 := h.fresh
  have h7 := h.closed
  have h8 := h.due
  cases e with
  | tick d =>
    injection hs with hs; subst hs
    simp only [Enabled] at he
    constructor <;> grind
  | connack a =>
    simp only [step, Chan.connack] at hs
    simp only [Enabled] at he
    split at hs
    · injection hs with hs; subst hs; exact h
    · split at hs
      · injection hs with hs; subst hs; exact shut_phases h _
      · split at hs
        · cases hs
        · injection hs with hs; subst hs
          refine ⟨head_snoc hh _, ?_, ?_, ?_, ?_, ?_, ?_, ?_, ?_⟩ <;> grind
  | pingresp =>
    injection hs with hs; subst hs
    simp only [Enabled] at he
    refine ⟨head_snoc hh _, ?_, ?_, ?_, ?_, ?_, ?_, ?_, ?_⟩ <;> grind [beats_snoc, pulses_snoc, Entry.beat, Entry.pulse, Option.toList]
  | submit a =>
    injection hs with hs; subst hs
    simp only [Chan.submit]
    split
    · exact h
    · constructor <;> grind
  | send uid =>
    injection hs with hs; subst hs
    simp only [Enabled] at he
    simp only [Chan.send]
    split
    · exact h
    · refine ⟨head_snoc hh _, ?_, ?_, ?_, ?_, ?_, ?_, ?_, ?_⟩ <;> grind
  | fail uid =>
    injection hs with hs; subst hs
    simp only [Chan.fail]
    constructor <;> grind
  | sendPing =>
    injection hs with hs; subst hs
    simp only [Enabled] at he
    simp only [Chan.sendPing]
    refine ⟨head_snoc hh _, ?_, ?_, ?_, ?_, ?_, ?_, ?_, ?_⟩ <;> grind
  | pingTask =>
    injection hs with hs; subst hs
    simp only [Enabled] at he
    simp only [Chan.pingTask]
    split
    · split
      · constructor <;> grind
      · split
        · refine ⟨head_snoc hh _, ?_, ?_, ?_, ?_, ?_, ?_, ?_, ?_⟩ <;> grind
        · constructor <;> grind
    · constructor <;> grind
  | pingTimer t =>
    injection hs with hs; subst hs
    simp only [Enabled] at he
    simp only [Chan.pingTimer]
    have : Phases cfg t0 { c with timers := c.timers.erase t } := by constructor <;> grind
    split
    · apply shut_phases
      constructor <;> grind
    · exact this
  | connackTimer =>
    injection hs with hs; subst hs
    simp only [Enabled] at he
    simp only [Chan.connackTimer]
    split
    · obtain ⟨rest, hr⟩ := hh
      exact ⟨⟨rest ++ [.shut c.now .connackTimeout], by simp [Chan.shut, hr]⟩, h.start, by simp [Chan.shut], by simp [Chan.shut],
        by simp [Chan.shut], by simp [Chan.shut], by simp [Chan.shut], by simp [Chan.shut], by simp [Chan.shut]⟩
    · constructor <;> grind
  | ack uid =>
    injection hs with hs; subst hs
    simp only [Chan.ack]
    split
    · exact h
    · constructor <;> grind
  | drop uid =>
    injection hs with hs; subst hs
    constructor <;> grind
  | disconnect =>
    injection hs with hs; subst hs
    split
    · exact h
    · constructor <;> grind
  | shut =>
    injection hs with hs; subst hs
    exact shut_phases h _

/-! ### Signs of life -/

/-- The last sign of life, and when the next ping is due. -/
structure Beating (cfg : Config) (c : Chan) : Prop where
  last : c.pingAt.isSome → ∃ s, (beats c.log).getLast? = some s ∧ s ≤ c.now ∧ (∀ r ∈ c.reqs, r.stamp ≤ s) ∧
    (c.phase = .connected → c.next ≤ s + cfg.keepAlive ∨ (none ∈ c.tasks ∧ c.next ≤ c.now + cfg.keepAlive)) ∧
    (c.phase = .connected ∨ c.tasks ≠ [] → c.now ≤ s + cfg.keepAlive)
  stamps : ∀ r ∈ c.reqs, r.stamp ≤ c.now
  gaps : Within cfg.keepAlive (beats c.log)

theorem within_snoc {d : Nat} : ∀ {l : List Nat} {t : Nat}, Within d l → (∀ s, l.getLast? = some s → s ≤ t ∧ t ≤ s + d) →
    Within d (l ++ [t])
  | [], _, _, _ => trivial
  | [a], t, _, hl => ⟨(hl a rfl).1, (hl a rfl).2, trivial⟩
  | _ :: b :: l, t, h, hl =>
    ⟨h.1, h.2.1, within_snoc (l := b :: l) h.2.2 fun s hs => hl s (by rw [List.getLast?_cons_cons]; exact hs)⟩

theorem Beating.open (cfg : Config) {now next : Nat} {waiting : Bool} {reqs : List Request} {nextUid : Nat}
    (h : ∀ r ∈ reqs, r.uid < nextUid ∧ r.stamp ≤ now) :
    Beating cfg (Chan.open cfg now next waiting reqs nextUid) := by
  exact ⟨by simp [Chan.open], fun r hr => (h r hr).2, trivial⟩

theorem shut_beating {cfg : Config} {c : Chan} (h : Beating cfg c) (why : Reason) : Beating cfg (c.shut why) := by
  refine ⟨by simp [Chan.shut], h.stamps, ?_⟩
  have : beats (c.shut why).log = beats c.log := by simp [Chan.shut, beats_snoc, Entry.beat]
  rw [this]
  exact h.gaps

/-- A sign of life now. -/
theorem beat_now {cfg : Config} {c : Chan} {e : Entry} (hp : e.beat = some c.now)
    (h : Beating cfg c) (hn : ∀ s, (beats c.log).getLast? = some s → s ≤ c.now ∧ c.now ≤ s + cfg.keepAlive) :
    (beats (c.log ++ [e])).getLast? = some c.now ∧
      Within cfg.keepAlive (beats (c.log ++ [e])) := by
  rw [beats_snoc, hp]
  exact ⟨by simp, within_snoc h.gaps hn⟩

/-- Tasks are there only while pings are. -/
theorem Phases.pinging {cfg : Config} {t0 : Nat} {c : Chan} (h : Phases cfg t0 c) {x : Option Nat} (hx : x ∈ c.tasks) :
    c.pingAt.isSome := by
  cases hq : c.pingAt with
  | some t => rfl
  | none => rw [(h.quiet hq).1] at hx; cases hx

theorem beating_now {cfg : Config} {c : Chan} (h : Beating cfg c) (hq : c.pingAt.isSome)
    (ht : c.phase = .connected ∨ c.tasks ≠ []) :
    ∀ s, (beats c.log).getLast? = some s → s ≤ c.now ∧ c.now ≤ s + cfg.keepAlive := by
  intro s hs
  obtain ⟨s', a1, a2, _, _, a5⟩ := h.last hq
  rw [hs] at a1
  cases a1
  exact ⟨a2, a5 ht⟩

theorem step_beating {cfg : Config} {t0 : Nat} {c c' : Chan} {e : Event} (hp : Phases cfg t0 c) (h : Beating cfg c)
    (he : Enabled c e) (hs : step cfg c e = .ok c') : Beating cfg c' := by
  have h1 := h.last
  have h2 := h.stamps
  have h3 := h.gaps
  have h4 := hp.connected
  have h5 := hp.quiet
  have h6 := hp.fresh
  have h7 := hp.closed
  have h8 := hp.due
  have h9 := hp.connecting
  cases e with
  | tick d =>
    injection hs with hs; subst hs
    simp only [Enabled] at he
    refine ⟨fun hq => ?_, fun r hr => Nat.le_trans (h2 r hr) (Nat.le_add_right _ _), h3⟩
    obtain ⟨s, a1, a2, a3, a4, a5⟩ := h1 hq
    obtain ⟨t, ht⟩ := Option.isSome_iff_exists.1 hq
    have b1 := h8 t ht
    have b2 := he.2.2.2.1 t ht
    have b3 := he.2.1
    refine ⟨s, a1, by show s ≤ c.now + d; omega, a3, fun hc => ?_, fun hc => ?_⟩
    · rcases a4 hc with x | x
      · exact .inl x
      · rw [b3] at x; exact absurd x.1 (by simp)
    · rcases hc with hc | hc
      · rcases a4 hc with x | x
        · show c.now + d ≤ _; omega
        · rw [b3] at x; exact absurd x.1 (by simp)
      · exact absurd b3 hc
  | connack a =>
    simp only [step, Chan.connack] at hs
    simp only [Enabled] at he
    split at hs
    · injection hs with hs; subst hs; exact h
    · split at hs
      · injection hs with hs; subst hs; exact shut_beating h _
      · split at hs
        · cases hs
        · injection hs with hs; subst hs
          have hpn : c.pingAt = none := by simpa using ‹¬ c.pingAt.isSome = true›
          have hb := beat_now (e := .accepted c.now) (c := c) (cfg := cfg) rfl h (by
            have := (h6 hpn he).1
            rw [this]; simp)
          refine ⟨fun _ => ⟨c.now, hb.1, Nat.le_refl _, h2, ?_, ?_⟩, h2, hb.2⟩ <;> grind
  | pingresp =>
    injection hs with hs; subst hs
    constructor <;> grind [beats_snoc, Entry.beat, Option.toList]
  | submit a =>
    injection hs with hs; subst hs
    simp only [Chan.submit]
    split
    · exact h
    · constructor <;> grind
  | send uid =>
    injection hs with hs; subst hs
    simp only [Enabled] at he
    simp only [Chan.send]
    split
    · exact h
    · have hq := hp.pinging he
      have hb := beat_now (e := .sent c.now) (c := c) (cfg := cfg) rfl h
        (beating_now h hq (.inr (List.ne_nil_of_mem he)))
      refine ⟨fun _ => ⟨c.now, hb.1, Nat.le_refl _, ?_, ?_, ?_⟩, ?_, hb.2⟩
      · grind
      · grind
      · grind
      · grind
  | fail uid =>
    injection hs with hs; subst hs
    simp only [Chan.fail]
    constructor <;> grind
  | sendPing =>
    injection hs with hs; subst hs
    simp only [Enabled] at he
    simp only [Chan.sendPing]
    have hq := hp.pinging he
    have hb := beat_now (e := .ping c.now) (c := c) (cfg := cfg) rfl h
      (beating_now h hq (.inr (List.ne_nil_of_mem he)))
    refine ⟨fun _ => ⟨c.now, hb.1, Nat.le_refl _, ?_, ?_, ?_⟩, ?_, hb.2⟩ <;> grind
  | pingTask =>
    injection hs with hs; subst hs
    simp only [Enabled] at he
    simp only [Chan.pingTask]
    split
    · split
      · constructor <;> grind
      · split
        · have hb := beat_now (e := .skipped c.now) (c := c) (cfg := cfg) rfl h
            (beating_now h (by obtain ⟨t, ht, _⟩ := he; rw [ht]; rfl) (.inl (Decidable.of_not_not ‹_›)))
          refine ⟨fun _ => ⟨c.now, hb.1, Nat.le_refl _, ?_, ?_, ?_⟩, ?_, hb.2⟩ <;> grind
        · constructor <;> grind
    · constructor <;> grind
  | pingTimer t =>
    injection hs with hs; subst hs
    simp only [Chan.pingTimer]
    split
    · apply shut_beating
      exact ⟨h1, h2, h3⟩
    · exact ⟨h1, h2, h3⟩
  | connackTimer =>
    injection hs with hs; subst hs
    simp only [Chan.connackTimer]
    split
    · apply shut_beating
      exact ⟨h1, h2, h3⟩
    · exact ⟨h1, h2, h3⟩
  | ack uid =>
    injection hs with hs; subst hs
    simp only [Enabled] at he
    simp only [Chan.ack]
    split
    · exact h
    · next r hr =>
      have := List.mem_of_find?_eq_some hr
      constructor <;> grind
  | drop uid =>
    injection hs with hs; subst hs
    simp only [Enabled] at he
    constructor <;> grind
  | disconnect =>
    injection hs with hs; subst hs
    split
    · exact h
    · constructor <;> grind
  | shut =>
    injection hs with hs; subst hs
    exact shut_beating h _

end Mqtt.KeepAlive311
