import Verif.Lemmas.KeepAlive311

/-! Invariants of a channel of an MQTT 3.1.1 connection about pings and what closes the channel. -/
namespace Mqtt.KeepAlive311

theorem apart_snoc {d : Nat} : ∀ {l : List Nat} {t : Nat}, Apart d l → (∀ s ∈ l, s + d ≤ t) → Apart d (l ++ [t])
  | [], _, _, _ => trivial
  | [a], t, _, hl => ⟨hl a (by simp), trivial⟩
  | _ :: b :: l, t, h, hl => ⟨h.1, apart_snoc (l := b :: l) h.2 fun s hs => hl s (List.mem_cons_of_mem _ hs)⟩

/-- When pings are sent. -/
structure Pulsing (cfg : Config) (c : Chan) : Prop where
  one : (c.tasks.count none) ≤ 1
  ahead : none ∈ c.tasks → c.now + cfg.keepAlive ≤ c.next
  before : ∀ p ∈ pulses c.log, p ≤ c.now ∧ (c.pingAt.isSome → p + cfg.keepAlive ≤ c.next) ∧
    (none ∈ c.tasks → p + cfg.keepAlive ≤ c.now)
  apart : Apart cfg.keepAlive (pulses c.log)

theorem Pulsing.open (cfg : Config) (now next : Nat) (waiting : Bool) (reqs : List Request) (nextUid : Nat) :
    Pulsing cfg (Chan.open cfg now next waiting reqs nextUid) := by
  refine ⟨by simp [Chan.open], by simp [Chan.open], ?_, trivial⟩
  intro p hp
  cases hp

theorem shut_pulsing {cfg : Config} {c : Chan} (h : Pulsing cfg c) (why : Reason) : Pulsing cfg (c.shut why) := by
  have hl : pulses (c.shut why).log = pulses c.log := by simp [Chan.shut, pulses_snoc, Entry.pulse]
  refine ⟨by simp [Chan.shut], by simp [Chan.shut], ?_, hl ▸ h.apart⟩
  rw [hl]
  exact fun p hp => ⟨(h.before p hp).1, by simp [Chan.shut], by simp [Chan.shut]⟩

theorem none_erase_some {l : List (Option Nat)} {u : Nat} : none ∈ l.erase (some u) ↔ none ∈ l :=
  List.mem_erase_of_ne (by simp)

theorem step_pulsing {cfg : Config} (hka : 0 < cfg.keepAlive) {t0 : Nat} {c c' : Chan} {e : Event} (hp : Phases cfg t0 c)
    (h : Pulsing cfg c) (he : Enabled c e) (hs : step cfg c e = .ok c') : Pulsing cfg c' := by
  have h1 := h.one
  have h2 := h.ahead
  have h3 := h.before
  have h4 := h.apart
  have h5 := hp.quiet
  have h6 := hp.fresh
  have h8 := hp.due
  have h9 := hp.connecting
  cases e with
  | tick d =>
    injection hs with hs; subst hs
    simp only [Enabled] at he
    refine ⟨h1, by simp [he.2.1], fun p hp => ⟨Nat.le_trans (h3 p hp).1 (Nat.le_add_right _ _), (h3 p hp).2.1, by simp [he.2.1]⟩, h4⟩
  | connack a =>
    simp only [step, Chan.connack] at hs
    simp only [Enabled] at he
    split at hs
    · injection hs with hs; subst hs; exact h
    · split at hs
      · injection hs with hs; subst hs; exact shut_pulsing h _
      · split at hs
        · cases hs
        · injection hs with hs; subst hs
          have hpn : c.pingAt = none := by simpa using ‹¬ c.pingAt.isSome = true›
          have hl : pulses (c.log ++ [Entry.accepted c.now]) = [c.now] := by
            rw [pulses_snoc, (h6 hpn he).2]; rfl
          have ht : ∀ (P : Prop) [Decidable P], none ∉ (if P then c.tasks ++ c.reqs.map fun r => some r.uid else c.tasks) := by
            intro P _
            rw [(h5 hpn).1]
            split <;> simp
          refine ⟨?_, fun hn => absurd hn (ht _), ?_, ?_⟩
          · show List.count none _ ≤ 1
            rw [List.count_eq_zero.2 (ht _)]; exact Nat.zero_le _
          · intro p hp
            simp only [hl] at hp
            rw [List.mem_singleton] at hp
            subst hp
            exact ⟨Nat.le_refl _, fun _ => Nat.le_refl _, fun hn => absurd hn (ht _)⟩
          · show Apart _ (pulses (c.log ++ [Entry.accepted c.now]))
            rw [hl]; trivial
  | pingresp =>
    injection hs with hs; subst hs
    have hl : pulses (c.log ++ [Entry.pingresp c.now]) = pulses c.log := by simp [pulses_snoc, Entry.pulse]
    exact ⟨h1, h2, hl ▸ h3, hl ▸ h4⟩
  | submit a =>
    injection hs with hs; subst hs
    simp only [Chan.submit]
    split
    · exact h
    · have hn : ∀ (P : Prop) [Decidable P], none ∈ (if P then c.tasks ++ [some c.nextUid] else c.tasks) → none ∈ c.tasks := by
        intro P _ hn
        split at hn
        · simpa using hn
        · exact hn
      refine ⟨?_, fun h => h2 (hn _ h), fun p hp => ⟨(h3 p hp).1, (h3 p hp).2.1, fun h => (h3 p hp).2.2 (hn _ h)⟩, h4⟩
      show List.count none _ ≤ 1
      split
      · simpa [List.count_append, List.count_cons] using h1
      · exact h1
  | send uid =>
    injection hs with hs; subst hs
    simp only [Chan.send]
    split
    · exact h
    · have hl : pulses (c.log ++ [Entry.sent c.now]) = pulses c.log := by simp [pulses_snoc, Entry.pulse]
      refine ⟨?_, fun h => h2 (none_erase_some.1 h), ?_, hl ▸ h4⟩
      · show List.count none (c.tasks.erase (some uid)) ≤ 1
        exact Nat.le_trans (List.Sublist.count_le _ List.erase_sublist) h1
      · show ∀ p ∈ pulses (c.log ++ [Entry.sent c.now]), _
        rw [hl]
        exact fun p hp => ⟨(h3 p hp).1, (h3 p hp).2.1, fun h => (h3 p hp).2.2 (none_erase_some.1 h)⟩
  | fail uid =>
    injection hs with hs; subst hs
    refine ⟨?_, fun h => h2 (none_erase_some.1 h),
      fun p hp => ⟨(h3 p hp).1, (h3 p hp).2.1, fun h => (h3 p hp).2.2 (none_erase_some.1 h)⟩, h4⟩
    show List.count none (c.tasks.erase (some uid)) ≤ 1
    exact Nat.le_trans (List.Sublist.count_le _ List.erase_sublist) h1
  | sendPing =>
    injection hs with hs; subst hs
    simp only [Enabled] at he
    have hl : pulses (c.log ++ [Entry.ping c.now]) = pulses c.log ++ [c.now] := by simp [pulses_snoc, Entry.pulse]
    have hc : (c.tasks.erase none).count none = 0 := by rw [List.count_erase_self]; omega
    have hn : none ∉ c.tasks.erase none := List.count_eq_zero.1 hc
    refine ⟨by show List.count none (c.tasks.erase none) ≤ 1; rw [hc]; exact Nat.zero_le _, fun h => absurd h hn, ?_, ?_⟩
    · show ∀ p ∈ pulses (c.log ++ [Entry.ping c.now]), _
      rw [hl]
      intro p hp
      rw [List.mem_append, List.mem_singleton] at hp
      rcases hp with hp | hp
      · exact ⟨(h3 p hp).1, (h3 p hp).2.1, fun h => absurd h hn⟩
      · subst hp
        exact ⟨Nat.le_refl _, fun _ => h2 he, fun h => absurd h hn⟩
    · show Apart _ (pulses (c.log ++ [Entry.ping c.now]))
      rw [hl]
      exact apart_snoc h4 fun s hs => (h3 s hs).2.2 he
  | pingTask =>
    injection hs with hs; subst hs
    simp only [Enabled] at he
    obtain ⟨t, ht, htn⟩ := he
    have hq : c.pingAt.isSome := by rw [ht]; rfl
    simp only [Chan.pingTask]
    split
    · next hdue =>
      have hno : none ∉ c.tasks := fun hn => by have := h2 hn; omega
      have hlt : ∀ p ∈ pulses c.log, p ≤ c.now ∧ p + cfg.keepAlive ≤ c.now := fun p hp => by
        have := h3 p hp
        exact ⟨this.1, Nat.le_trans (this.2.1 hq) hdue⟩
      split
      · exact ⟨h1, fun h => absurd h hno, fun p hp => ⟨(hlt p hp).1, fun _ => Nat.le_trans (hlt p hp).2 (Nat.le_add_right _ _),
          fun h => absurd h hno⟩, h4⟩
      · split
        · have hl : pulses (c.log ++ [Entry.skipped c.now]) = pulses c.log := by simp [pulses_snoc, Entry.pulse]
          refine ⟨h1, fun h => absurd h hno, ?_, hl ▸ h4⟩
          show ∀ p ∈ pulses (c.log ++ [Entry.skipped c.now]), _
          rw [hl]
          exact fun p hp => ⟨(hlt p hp).1, fun _ => Nat.le_trans (hlt p hp).2 (Nat.le_add_right _ _), fun h => absurd h hno⟩
        · refine ⟨?_, fun _ => Nat.le_refl _, fun p hp => ⟨(hlt p hp).1, fun _ => Nat.le_trans (hlt p hp).2 (Nat.le_add_right _ _),
            fun _ => (hlt p hp).2⟩, h4⟩
          show List.count none (c.tasks ++ [none]) ≤ 1
          rw [List.count_append, List.count_eq_zero.2 hno]; simp
    · exact ⟨h1, h2, fun p hp => ⟨(h3 p hp).1, fun _ => (h3 p hp).2.1 hq, (h3 p hp).2.2⟩, h4⟩
  | pingTimer t =>
    injection hs with hs; subst hs
    simp only [Chan.pingTimer]
    split
    · apply shut_pulsing
      exact ⟨h1, h2, h3, h4⟩
    · exact ⟨h1, h2, h3, h4⟩
  | connackTimer =>
    injection hs with hs; subst hs
    simp only [Chan.connackTimer]
    split
    · apply shut_pulsing
      exact ⟨h1, h2, h3, h4⟩
    · exact ⟨h1, h2, h3, h4⟩
  | ack uid =>
    injection hs with hs; subst hs
    simp only [Chan.ack]
    split
    · exact h
    · have hle : ∀ a : Nat, c.next ≤ if a > c.next then a else c.next := by intro a; split <;> omega
      exact ⟨h1, fun h => Nat.le_trans (h2 h) (hle _),
        fun p hp => ⟨(h3 p hp).1, fun h => Nat.le_trans ((h3 p hp).2.1 h) (hle _), (h3 p hp).2.2⟩, h4⟩
  | drop uid =>
    injection hs with hs; subst hs
    exact ⟨h1, h2, h3, h4⟩
  | disconnect =>
    injection hs with hs; subst hs
    split
    · exact h
    · exact ⟨h1, h2, h3, h4⟩
  | shut =>
    injection hs with hs; subst hs
    exact shut_pulsing h _

end Mqtt.KeepAlive311
