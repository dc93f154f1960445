import Verif.Lemmas.KeepAlive311Ping

/-! Invariants of a channel of an MQTT 3.1.1 connection about unanswered pings and what closes the channel. -/
namespace Mqtt.KeepAlive311

theorem snoc_split {α : Type} {l a b : List α} {e x : α} (h : l ++ [e] = a ++ x :: b) :
    (b = [] ∧ a = l ∧ x = e) ∨ ∃ b', b = b' ++ [e] ∧ l = a ++ x :: b' := by
  rcases List.eq_nil_or_concat b with hb | ⟨b', y, hb⟩
  · subst hb
    have := List.append_inj' h rfl
    exact .inl ⟨rfl, this.1.symm, (List.cons.inj this.2).1.symm⟩
  · subst hb
    have h' : l ++ [e] = (a ++ x :: b') ++ [y] := by rw [h]; simp
    have := List.append_inj' h' rfl
    have hy := (List.cons.inj this.2).1
    subst hy
    exact .inr ⟨b', by simp, this.1⟩

theorem ping_pulse {l a b : List Entry} {p : Nat} (h : l = a ++ .ping p :: b) : p ∈ pulses l := by
  subst h
  simp [pulses, Entry.pulse]

/-- Pings without PINGRESP, and channels closed. -/
structure Answering (cfg : Config) (t0 : Nat) (c : Chan) : Prop where
  timers : ∀ t ∈ c.timers, c.now ≤ t ∧ ∃ a p b, c.log = a ++ .ping p :: b ∧ t = p + cfg.pingTimeout ∧
    (c.waiting → ∀ e ∈ b, e.isPingresp = false)
  unanswered : c.phase ≠ .closed → ∀ a p b, c.log = a ++ .ping p :: b → (∀ e ∈ b, e.isPingresp = false) →
    c.waiting ∧ p + cfg.pingTimeout ∈ c.timers
  shut : ∀ a t why b, c.log = a ++ .shut t why :: b → b = [] ∧ c.phase = .closed ∧
    (why = .pingTimeout → ∃ a1 p a2, a = a1 ++ .ping p :: a2 ∧ t = p + cfg.pingTimeout ∧ ∀ e ∈ a2, e.isPingresp = false) ∧
    (why = .connackTimeout → t = t0 + cfg.pingTimeout ∧ ∀ e ∈ a, e.isAccepted = false)

theorem Answering.open (cfg : Config) (now next : Nat) (waiting : Bool) (reqs : List Request) (nextUid : Nat) :
    Answering cfg now (Chan.open cfg now next waiting reqs nextUid) := by
  refine ⟨by simp [Chan.open], fun _ a p b h => ?_, fun a t why b h => ?_⟩
  all_goals
    cases a with
    | nil => cases h
    | cons x a => simp [Chan.open] at h

/-- Entries of no consequence. -/
def Entry.plain : Entry → Bool
  | .ping _ => false
  | .pingresp _ => false
  | .shut _ _ => false
  | _ => true

theorem Answering.keep {cfg : Config} {t0 : Nat} {c c' : Chan} (h : Answering cfg t0 c) (ht : c'.timers = c.timers)
    (hn : c'.now = c.now) (hw : c'.waiting = c.waiting) (hp : c'.phase = .closed ↔ c.phase = .closed)
    (hl : c'.log = c.log) : Answering cfg t0 c' := by
  refine ⟨?_, ?_, ?_⟩
  · rw [ht, hn, hw, hl]; exact h.timers
  · intro hc
    rw [ht, hw, hl]
    exact h.unanswered fun x => hc (hp.2 x)
  · rw [hl, hp]; exact h.shut

theorem Answering.note {cfg : Config} {t0 : Nat} {c c' : Chan} (h : Answering cfg t0 c) {e : Entry} (he : e.plain = true)
    (ht : c'.timers = c.timers) (hn : c'.now = c.now) (hw : c'.waiting = c.waiting) (hp : c.phase ≠ .closed)
    (hl : c'.log = c.log ++ [e]) : Answering cfg t0 c' := by
  have hr : e.isPingresp = false := by cases e <;> first | rfl | cases he
  refine ⟨?_, ?_, ?_⟩
  · rw [ht, hn, hw, hl]
    intro t htt
    obtain ⟨h1, a, p, b, h2, h3, h4⟩ := h.timers t htt
    refine ⟨h1, a, p, b ++ [e], by rw [h2]; simp, h3, fun w x hx => ?_⟩
    rw [List.mem_append, List.mem_singleton] at hx
    rcases hx with hx | hx
    · exact h4 w x hx
    · rw [hx]; exact hr
  · intro _ a p b hab hb
    rw [hl] at hab
    rw [ht, hw]
    rcases snoc_split hab with ⟨_, _, h3⟩ | ⟨b', h1, h2⟩
    · rw [← h3] at he; cases he
    · exact h.unanswered hp a p b' h2 fun x hx => hb x (by rw [h1]; exact List.mem_append_left _ hx)
  · intro a t why b hab
    rw [hl] at hab
    rcases snoc_split hab with ⟨_, _, h3⟩ | ⟨b', h1, h2⟩
    · rw [← h3] at he; cases he
    · exact absurd (h.shut a t why b' h2).2.1 hp

theorem shut_answering {cfg : Config} {t0 : Nat} {c c' : Chan} (h : Answering cfg t0 c) {why : Reason} (hp : c.phase ≠ .closed)
    (ht : c'.timers = []) (hp' : c'.phase = .closed) (hl : c'.log = c.log ++ [.shut c.now why])
    (h1 : why = .pingTimeout → ∃ a1 p a2, c.log = a1 ++ .ping p :: a2 ∧ c.now = p + cfg.pingTimeout ∧
      ∀ e ∈ a2, e.isPingresp = false)
    (h2 : why = .connackTimeout → c.now = t0 + cfg.pingTimeout ∧ ∀ e ∈ c.log, e.isAccepted = false) :
    Answering cfg t0 c' := by
  refine ⟨by rw [ht]; simp, fun x => absurd hp' x, ?_⟩
  intro a t y b hab
  rw [hl] at hab
  rcases snoc_split hab with ⟨h3, h4, h5⟩ | ⟨b', _, h4⟩
  · injection h5 with h6 h7
    subst h3; subst h4; subst h6; subst h7
    exact ⟨rfl, hp', h1, h2⟩
  · exact absurd (h.shut a t y b' h4).2.1 hp

theorem no_accepted {l : List Entry} (h : pulses l = []) : ∀ e ∈ l, e.isAccepted = false := by
  intro e he
  cases e with
  | accepted t =>
    have : t ∈ pulses l := List.mem_filterMap.2 ⟨_, he, rfl⟩
    rw [h] at this; cases this
  | _ => rfl

theorem step_answering {cfg : Config} (hcfg : cfg.pingTimeout < cfg.keepAlive) {t0 : Nat} {c c' : Chan} {e : Event}
    (hp : Phases cfg t0 c) (hu : Pulsing cfg c) (h : Answering cfg t0 c) (he : Enabled c e) (hs : step cfg c e = .ok c') :
    Answering cfg t0 c' := by
  have open_of : c.pingAt.isSome → c.phase ≠ .closed := fun hq hc => by
    rw [(hp.closed hc).1] at hq; cases hq
  cases e with
  | tick d =>
    injection hs with hs; subst hs
    refine ⟨fun t ht => ⟨he.2.2.2.2 t ht, (h.timers t ht).2⟩, h.unanswered, h.shut⟩
  | connack a =>
    simp only [step, Chan.connack] at hs
    simp only [Enabled] at he
    split at hs
    · injection hs with hs; subst hs; exact h
    · split at hs
      · injection hs with hs; subst hs
        exact shut_answering h he rfl rfl rfl (by simp) (by simp)
      · split at hs
        · cases hs
        · injection hs with hs; subst hs
          exact h.note (e := .accepted c.now) rfl rfl rfl rfl he rfl
  | pingresp =>
    injection hs with hs; subst hs
    simp only [Enabled] at he
    refine ⟨?_, ?_, ?_⟩
    · intro t ht
      obtain ⟨h1, a, p, b, h2, h3, _⟩ := h.timers t ht
      exact ⟨h1, a, p, b ++ [.pingresp c.now], by rw [h2]; simp, h3, by simp⟩
    · intro _ a p b hab hb
      rcases snoc_split hab with ⟨_, _, h3⟩ | ⟨b', h1, h2⟩
      · cases h3
      · have := hb (.pingresp c.now) (by rw [h1]; simp)
        cases this
    · intro a t why b hab
      rcases snoc_split hab with ⟨_, _, h3⟩ | ⟨b', h1, h2⟩
      · cases h3
      · exact absurd (h.shut a t why b' h2).2.1 he
  | submit a =>
    injection hs with hs; subst hs
    simp only [Chan.submit]
    split
    · exact h
    · exact h.keep rfl rfl rfl Iff.rfl rfl
  | send uid =>
    injection hs with hs; subst hs
    have ho := open_of (hp.pinging he)
    simp only [Chan.send]
    split
    · exact h
    · exact h.note (e := .sent c.now) rfl rfl rfl rfl ho rfl
  | fail uid =>
    injection hs with hs; subst hs
    exact h.keep rfl rfl rfl Iff.rfl rfl
  | sendPing =>
    injection hs with hs; subst hs
    have ho := open_of (hp.pinging he)
    have hnil : c.timers = [] := by
      rw [List.eq_nil_iff_forall_not_mem]
      intro t ht
      obtain ⟨h1, a, p, b, h2, h3, _⟩ := h.timers t ht
      have := (hu.before p (ping_pulse h2)).2.2 he
      omega
    refine ⟨?_, ?_, ?_⟩
    · intro t ht
      simp only [Chan.sendPing, hnil, List.nil_append, List.mem_singleton] at ht
      subst ht
      exact ⟨Nat.le_add_right _ _, c.log, c.now, [], rfl, rfl, by simp⟩
    · intro _ a p b hab hb
      refine ⟨rfl, ?_⟩
      show _ ∈ c.timers ++ [c.now + cfg.pingTimeout]
      rcases snoc_split hab with ⟨_, _, h3⟩ | ⟨b', h1, h2⟩
      · injection h3 with h3; subst h3; simp
      · exact List.mem_append_left _ (h.unanswered ho a p b' h2 fun x hx => hb x (by rw [h1]; exact List.mem_append_left _ hx)).2
    · intro a t why b hab
      rcases snoc_split hab with ⟨_, _, h3⟩ | ⟨b', h1, h2⟩
      · cases h3
      · exact absurd (h.shut a t why b' h2).2.1 ho
  | pingTask =>
    injection hs with hs; subst hs
    obtain ⟨t, ht, htn⟩ := he
    have ho := open_of (by rw [ht]; rfl)
    simp only [Chan.pingTask]
    split
    · split
      · exact h.keep rfl rfl rfl Iff.rfl rfl
      · split
        · exact h.note (e := .skipped c.now) rfl rfl rfl rfl ho rfl
        · exact h.keep rfl rfl rfl Iff.rfl rfl
    · exact h.keep rfl rfl rfl Iff.rfl rfl
  | pingTimer t =>
    injection hs with hs; subst hs
    obtain ⟨htm, htn⟩ := he
    obtain ⟨h1, a, p, b, h2, h3, h4⟩ := h.timers t htm
    have ho : c.phase ≠ .closed := fun hc => by
      rw [(hp.quiet (hp.closed hc).1).2] at htm; cases htm
    simp only [Chan.pingTimer]
    split
    · next hw =>
      exact shut_answering h (why := .pingTimeout) ho rfl rfl rfl (fun _ => ⟨a, p, b, h2, by omega, h4 hw⟩) (by simp)
    · next hw =>
      refine ⟨fun t ht => h.timers t (List.mem_of_mem_erase ht), ?_, h.shut⟩
      intro hc a p b hab hb
      exact absurd (h.unanswered hc a p b hab hb).1 hw
  | connackTimer =>
    injection hs with hs; subst hs
    obtain ⟨t, ht, htn⟩ := he
    have h1 := hp.connack t ht
    simp only [Chan.connackTimer]
    split
    · next hc =>
      have hc' : c.phase = .connecting := hc
      refine shut_answering h (why := .connackTimeout) (by rw [hc']; simp) rfl rfl rfl (by simp) fun _ => ⟨by omega, ?_⟩
      exact no_accepted (hp.fresh (hp.connecting hc').2 (by rw [hc']; simp)).2
    · exact h.keep rfl rfl rfl Iff.rfl rfl
  | ack uid =>
    injection hs with hs; subst hs
    simp only [Chan.ack]
    split
    · exact h
    · exact h.keep rfl rfl rfl Iff.rfl rfl
  | drop uid =>
    injection hs with hs; subst hs
    exact h.keep rfl rfl rfl Iff.rfl rfl
  | disconnect =>
    injection hs with hs; subst hs
    split
    · exact h
    · next hc => exact h.keep rfl rfl rfl ⟨fun x => (by cases x), fun x => absurd x hc⟩ rfl
  | shut =>
    injection hs with hs; subst hs
    exact shut_answering h he rfl rfl rfl (by simp) (by simp)

/-! ### The packets sent -/

theorem signs_snoc (l : List Entry) (e : Entry) : (l ++ [e]).filterMap Entry.sign = l.filterMap Entry.sign ++ e.sign.toList := by
  cases e <;> simp [Entry.sign]

theorem packets_snoc (l : List Entry) (e : Entry) :
    (l ++ [e]).filterMap Entry.packet = l.filterMap Entry.packet ++ e.packet.toList := by
  cases e <;> simp [Entry.packet]

/-- The packets sent are CONNECT and those after the acceptance. -/
def Shaped (cfg : Config) (t0 : Nat) (l : List Entry) : Prop :=
  (l.filterMap Entry.sign = [] ∧ l.filterMap Entry.packet = [t0]) ∨
    ∃ a rest, l.filterMap Entry.sign = a :: rest ∧ l.filterMap Entry.packet = t0 :: rest ∧ a ≤ t0 + cfg.pingTimeout

theorem Shaped.none {cfg : Config} {t0 : Nat} {l : List Entry} (h : Shaped cfg t0 l) {e : Entry} (h1 : e.sign = none)
    (h2 : e.packet = none) : Shaped cfg t0 (l ++ [e]) := by
  unfold Shaped
  rw [signs_snoc, packets_snoc, h1, h2]
  simpa [Shaped] using h

theorem Shaped.some {cfg : Config} {t0 t : Nat} {l : List Entry} (h : Shaped cfg t0 l) (hs : l.filterMap Entry.sign ≠ [])
    {e : Entry} (h1 : e.sign = some t) (h2 : e.packet = some t) : Shaped cfg t0 (l ++ [e]) := by
  unfold Shaped
  rw [signs_snoc, packets_snoc, h1, h2]
  rcases h with h | ⟨a, rest, h3, h4, h5⟩
  · exact absurd h.1 hs
  · exact .inr ⟨a, rest ++ [t], by simp [h3], by simp [h4], h5⟩

theorem signs_beats {l : List Entry} (h : beats l = []) : l.filterMap Entry.sign = [] := by
  rw [List.filterMap_eq_nil_iff]
  intro e he
  have := (List.filterMap_eq_nil_iff.1 h) e he
  cases e <;> first | rfl | cases this

/-- While there are pings, the connection has been accepted. -/
def Signed (c : Chan) : Prop := c.pingAt.isSome → c.log.filterMap Entry.sign ≠ []

theorem Signed.append {c c' : Chan} (h : Signed c) {l : List Entry} (hp : c'.pingAt.isSome → c.pingAt.isSome)
    (hl : c'.log = c.log ++ l) : Signed c' := by
  intro hq
  rw [hl, List.filterMap_append]
  exact fun x => h (hp hq) (List.append_eq_nil_iff.1 x).1

theorem step_shaped {cfg : Config} {t0 : Nat} {c c' : Chan} {e : Event} (hp : Phases cfg t0 c) (hg : Signed c)
    (h : Shaped cfg t0 c.log) (he : Enabled c e) (hs : step cfg c e = .ok c') : Shaped cfg t0 c'.log ∧ Signed c' := by
  have nil : ∀ c' : Chan, (c'.pingAt.isSome → c.pingAt.isSome) → c'.log = c.log → Shaped cfg t0 c'.log ∧ Signed c' :=
    fun c' h1 h2 => ⟨h2 ▸ h, hg.append (l := []) h1 (by rw [h2]; simp)⟩
  have one : ∀ (c' : Chan) (e : Entry), (c'.pingAt.isSome → c.pingAt.isSome) → c'.log = c.log ++ [e] → e.sign = none →
      e.packet = none → Shaped cfg t0 c'.log ∧ Signed c' :=
    fun c' e h1 h2 h3 h4 => ⟨h2 ▸ h.none h3 h4, hg.append h1 h2⟩
  have shut : ∀ why, Shaped cfg t0 (c.shut why).log ∧ Signed (c.shut why) := fun why =>
    one _ (.shut c.now why) (fun x => by cases x) rfl rfl rfl
  cases e with
  | tick d => injection hs with hs; subst hs; exact nil _ id rfl
  | connack a =>
    simp only [step, Chan.connack] at hs
    simp only [Enabled] at he
    split at hs
    · injection hs with hs; subst hs; exact ⟨h, hg⟩
    · next hnd =>
      split at hs
      · injection hs with hs; subst hs; exact shut _
      · split at hs
        · cases hs
        · injection hs with hs; subst hs
          have hpn : c.pingAt = none := by simpa using ‹¬ c.pingAt.isSome = true›
          have hc : c.phase = .connecting := by
            cases hph : c.phase with
            | connecting => rfl
            | connected => have := hp.connected hph; rw [hpn] at this; cases this
            | disconnecting => exact absurd hph hnd
            | closed => exact absurd hph he
          have h1 := signs_beats (hp.fresh hpn he).1
          have h2 := (hp.connack _ (hp.connecting hc).1).1
          rcases h with h | ⟨a, rest, h3, _⟩
          · refine ⟨.inr ⟨c.now, [], ?_, ?_, h2⟩, fun _ => ?_⟩
            · show List.filterMap _ (c.log ++ [_]) = _
              rw [signs_snoc, h1]; rfl
            · show List.filterMap _ (c.log ++ [_]) = _
              rw [packets_snoc, h.2]; rfl
            · show List.filterMap _ (c.log ++ [_]) ≠ _
              rw [signs_snoc, h1]; simp [Entry.sign]
          · rw [h1] at h3; cases h3
  | pingresp => injection hs with hs; subst hs; exact one _ (.pingresp c.now) id rfl rfl rfl
  | submit a =>
    injection hs with hs; subst hs
    simp only [Chan.submit]
    split
    · exact ⟨h, hg⟩
    · exact nil _ id rfl
  | send uid =>
    injection hs with hs; subst hs
    have hq := hp.pinging he
    simp only [Chan.send]
    split
    · exact ⟨h, hg⟩
    · exact ⟨h.some (hg hq) (e := .sent c.now) rfl rfl, hg.append (l := [.sent c.now]) id rfl⟩
  | fail uid => injection hs with hs; subst hs; exact nil _ id rfl
  | sendPing =>
    injection hs with hs; subst hs
    have hq := hp.pinging he
    exact ⟨h.some (hg hq) (e := .ping c.now) rfl rfl, hg.append (l := [.ping c.now]) id rfl⟩
  | pingTask =>
    injection hs with hs; subst hs
    obtain ⟨t, ht, _⟩ := he
    have hq : c.pingAt.isSome := by rw [ht]; rfl
    simp only [Chan.pingTask]
    split
    · split
      · exact nil _ (fun _ => hq) rfl
      · split
        · exact one _ (.skipped c.now) (fun _ => hq) rfl rfl rfl
        · exact nil _ (fun _ => hq) rfl
    · exact nil _ (fun _ => hq) rfl
  | pingTimer t =>
    injection hs with hs; subst hs
    simp only [Chan.pingTimer]
    split
    · exact one _ (.shut c.now .pingTimeout) (fun x => by cases x) rfl rfl rfl
    · exact nil _ id rfl
  | connackTimer =>
    injection hs with hs; subst hs
    simp only [Chan.connackTimer]
    split
    · exact one _ (.shut c.now .connackTimeout) (fun x => by cases x) rfl rfl rfl
    · exact nil _ id rfl
  | ack uid =>
    injection hs with hs; subst hs
    simp only [Chan.ack]
    split
    · exact ⟨h, hg⟩
    · exact nil _ id rfl
  | drop uid => injection hs with hs; subst hs; exact nil _ id rfl
  | disconnect =>
    injection hs with hs; subst hs
    split
    · exact ⟨h, hg⟩
    · exact nil _ id rfl
  | shut => injection hs with hs; subst hs; exact shut _

/-! ### Every reachable state -/

structure Timed (cfg : Config) (t0 : Nat) (c : Chan) : Prop where
  phases : Phases cfg t0 c
  beating : Beating cfg c
  pulsing : Pulsing cfg c
  answering : Answering cfg t0 c
  signed : Signed c
  shaped : Shaped cfg t0 c.log

theorem timed {cfg : Config} (hcfg : cfg.pingTimeout < cfg.keepAlive) {c : Chan} (h : Reachable cfg c) :
    ∃ t0, Timed cfg t0 c := by
  induction h with
  | opened now next waiting reqs nextUid _ _ hr =>
    exact ⟨now, Phases.open .., Beating.open cfg hr, Pulsing.open .., Answering.open .., fun x => (by cases x),
      .inl ⟨rfl, rfl⟩⟩
  | step _ he hs ih =>
    obtain ⟨t0, h1, h2, h3, h4, h5, h6⟩ := ih
    have h7 := step_shaped h1 h5 h6 he hs
    exact ⟨t0, step_phases h1 he hs, step_beating h1 h2 he hs, step_pulsing (by omega) h1 h3 he hs,
      step_answering hcfg h1 h3 h4 he hs, h7.2, h7.1⟩

theorem no_skipped {l : List Entry} (h : ∀ e ∈ l, e.isSkipped = false) : l.filterMap Entry.sign = beats l := by
  induction l with
  | nil => rfl
  | cons e l ih =>
    have h1 := ih fun x hx => h x (List.mem_cons_of_mem _ hx)
    have h2 := h e (by simp)
    unfold beats at *
    have h3 : e.sign = e.beat := by cases e <;> first | rfl | cases h2
    rw [List.filterMap_cons, List.filterMap_cons, h3, h1]

end Mqtt.KeepAlive311
