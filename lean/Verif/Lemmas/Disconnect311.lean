import Verif.Disconnect311
import Verif.Lemmas.Progress311Run

namespace Mqtt.Client311

/-- While the connection is being disconnected its channel stays, and none is used instead. -/
theorem step_leaving {c c' : Conn} {e : Event} (hc : Ctl c) (he : Enabled c e = true) (hs : step c e = .ok c')
    (hst : c.state = .disconnecting) (hn : e ≠ .shutdown) (hl : c'.state ≠ .disconnected) :
    c'.state = .disconnecting ∧ c'.slot = c.slot ∧ (c.slot = true → c'.chan = c.chan) := by
  by_cases ha : e.isAside = true
  · obtain ⟨⟨g, w, h⟩, _⟩ := step_aside hc he hs ha
    exact ⟨h.state.trans hst, h.slot, fun _ => h.chan⟩
  have fin : ∀ {d d' : Conn} {p : State}, d.finishDisconnect p = .ok d' → d'.state = .disconnected := by
    intro d d' p h
    exact (finishDisconnect_ends h).1
  cases e with
  | connect clean =>
    simp only [step, Conn.connect, hst] at hs
    cases hs
    exact ⟨hst, rfl, fun _ => rfl⟩
  | launch ok =>
    simp only [Enabled, decide_eq_true_eq] at he
    have := (hc.conn (by simp [he, Busy.inConnect])).1
    rw [hst] at this
    cases this
  | advance =>
    simp only [step] at hs
    unfold Conn.advance at hs
    split at hs
    · cases hs; exact ⟨hst, rfl, fun _ => rfl⟩
    · rename_i all next hb
      have hr := removes_aside all c
      have out : ∀ {d : Conn}, d.state = (all.foldl Conn.remove c).state → d.slot = (all.foldl Conn.remove c).slot →
          d.chan = (all.foldl Conn.remove c).chan →
          d.state = .disconnecting ∧ d.slot = c.slot ∧ (c.slot = true → d.chan = c.chan) :=
        fun h1 h2 h3 => ⟨h1.trans (hr.state.trans hst), h2.trans hr.slot, fun _ => h3.trans hr.chan⟩
      simp only at hs
      split at hs
      · cases hs; exact out rfl rfl rfl
      · rw [schedule_ok hs]; exact out rfl rfl rfl
      · cases hs; exact out rfl rfl rfl
      · cases hs; exact out rfl rfl rfl
      · exact absurd (fin hs) hl
    · rw [if_pos hst] at hs
      exact absurd (fin hs) hl
    · cases hs; exact ⟨hst, rfl, fun _ => rfl⟩
  | disconnect =>
    simp only [step, Conn.disconnect, hst] at hs
    cases hs
    exact ⟨hst, rfl, fun _ => rfl⟩
  | acquire => simp only [step] at hs; cases hs; exact ⟨hst, rfl, fun _ => rfl⟩
  | release =>
    simp only [step] at hs
    rw [release_kept hs (by simp [hst])]
    exact ⟨hst, rfl, fun _ => rfl⟩
  | setup s =>
    simp only [Enabled, decide_eq_true_eq] at he
    have hx : c.chan = none := by
      rcases hc.driver (by simp [hst]) he.1 with h | h | h
      · exact h.2.1
      · have := h.1; rw [he.2] at this; cases this
      · exact h.2.1
    have hsl := (hc.noChan hx).1
    simp only [step] at hs
    cases hs
    cases s <;> simp [Conn.setup, Conn.shutdown, hst, hsl]
  | packet p =>
    cases p with
    | connack a =>
      cases a with
      | false => exact absurd rfl ha
      | true =>
        simp only [step] at hs
        split at hs
        · cases hs
        · simp only [Conn.receive, Conn.connack, hst] at hs
          cases hs
          exact ⟨hst, rfl, fun _ => rfl⟩
    | _ => exact absurd rfl ha
  | attempt ok =>
    simp only [step, Conn.attempt, hst, if_true] at hs
    split at hs
    · cases hs; exact ⟨rfl, rfl, fun _ => rfl⟩
    · exact absurd (release_state hs).1 hl
  | disconnectTask => simp only [step] at hs; cases hs; exact ⟨hst, rfl, fun _ => rfl⟩
  | shutdown => exact absurd rfl hn
  | _ => exact absurd rfl ha

end Mqtt.Client311

namespace Mqtt.Disconnect311

open Mqtt.Client311

variable {allowed : World → Event → Prop} {w w' : World}

/-- A call that is going on and not overtaken sees the channel it is meant for, or none. -/
structure Inv (w : World) : Prop where
  ctl : Ctl w.conn
  state : w.call ≠ .none → w.over = false → w.conn.state = .disconnecting
  slot : w.call ≠ .none → w.over = false → w.conn.slot = w.aim.isSome
  chan : w.call ≠ .none → w.over = false → ∀ n, w.aim = some n → w.conn.chan = some n
  tested : w.call = .tested → w.over = false → w.conn.slot = true

theorem Inv.step (h : Inv w) {e : Event} (hd : w.conn.destroyed = false) (he : Enabled w e = true)
    (hs : Disconnect311.step w e = .ok w') : Inv w' := by
  cases e with
  | base e =>
    simp only [Enabled, Bool.and_eq_true] at he
    simp only [Disconnect311.step] at hs
    split at hs
    · cases hs
    · rename_i c hc
      cases hs
      have key : w.call ≠ .none → (w.over || e = .shutdown || c.state = .disconnected) = false →
          w.over = false ∧ c.state = .disconnecting ∧ c.slot = w.conn.slot ∧ (w.conn.slot = true → c.chan = w.conn.chan) := by
        intro h1 h2
        simp only [Bool.or_eq_false_iff, decide_eq_false_iff_not] at h2
        exact ⟨h2.1.1, step_leaving h.ctl he.1 hc (h.state h1 h2.1.1) h2.1.2 h2.2⟩
      refine ⟨h.ctl.step hd he.1 hc, fun h1 h2 => (key h1 h2).2.1, fun h1 h2 => ?_, fun h1 h2 n hn => ?_, fun h1 h2 => ?_⟩
      · exact (key h1 h2).2.2.1.trans (h.slot h1 (key h1 h2).1)
      · have hsl := h.slot h1 (key h1 h2).1
        simp only at hn
        rw [hn] at hsl
        exact ((key h1 h2).2.2.2 hsl).trans (h.chan h1 (key h1 h2).1 n hn)
      · have h0 : w.call ≠ .none := by simp only at h1; simp [h1]
        exact (key h0 h2).2.2.1.trans (h.tested h1 (key h0 h2).1)
  | lock =>
    simp only [Disconnect311.step] at hs
    split at hs
    · rename_i hst
      cases hs
      have k := h.ctl.disconnect
      unfold Conn.disconnect at k
      rw [if_pos hst] at k
      have hk : Ctl { w.conn with state := .disconnecting } :=
        ⟨k.off, k.pin, k.conn, k.busyOpen, k.driver, k.noChan, h.ctl.task, k.connected, k.reconnecting, k.scheduled, k.shut, k.intr,
          k.dead, k.chans, k.tchans, k.alive⟩
      refine ⟨hk, fun _ _ => rfl, fun _ _ => ?_, fun _ _ n hn => ?_, fun h => by cases h⟩
      · simp only
        cases hsl : w.conn.slot with
        | false => rfl
        | true =>
          simp only [if_true]
          cases hch : w.conn.chan with
          | none => rw [(h.ctl.noChan hch).1] at hsl; cases hsl
          | some n => rfl
      · simp only at hn
        split at hn
        · exact hn
        · cases hn
    · cases hs; exact h
  | test =>
    simp only [Enabled, decide_eq_true_eq] at he
    simp only [Disconnect311.step] at hs
    cases hs
    have h0 : w.call ≠ .none := by simp [he]
    exact ⟨h.ctl, fun _ h2 => h.state h0 h2, fun _ h2 => h.slot h0 h2, fun _ h2 => h.chan h0 h2, fun h1 _ => by
      simp only at h1
      split at h1
      · assumption
      · cases h1⟩
  | use =>
    simp only [Disconnect311.step] at hs
    split at hs
    · rename_i hsl
      cases hs
      have k := h.ctl
      exact ⟨⟨k.off, k.pin, k.conn, k.busyOpen, k.driver, k.noChan, fun _ => hsl, k.connected, k.reconnecting, k.scheduled, k.shut,
        k.intr, k.dead, k.chans, k.tchans, k.alive⟩, fun h => absurd rfl h, fun h => absurd rfl h, fun h => absurd rfl h,
        fun h => by cases h⟩
    · cases hs

theorem Reachable.inv (h : Reachable allowed w) : Inv w := by
  induction h with
  | init => exact ⟨Ctl.init, fun h => absurd rfl h, fun h => absurd rfl h, fun h => absurd rfl h, fun h => by cases h⟩
  | step _ hd he _ hs ih => exact ih.step hd he hs

end Mqtt.Disconnect311
