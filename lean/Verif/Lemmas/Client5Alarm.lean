import Verif.Lemmas.Client5Due

/-!
The service task of the MQTT 5 client is scheduled for the first ack timeout at the latest.
-/
namespace Mqtt.Client5

open Mqtt.V5

theorem earliest_le {ops : List Op} {us : List Nat} {v : Nat} (h : earliest ops us = some v) :
    ∀ u ∈ us, deadlineOf ops v ≤ deadlineOf ops u := by
  induction us generalizing v with
  | nil => cases h
  | cons x us ih =>
    intro u hu
    rw [earliest] at h
    split at h
    · rename_i hn
      cases h
      rcases List.mem_cons.1 hu with rfl | hu
      · exact Nat.le_refl _
      · cases us with
        | nil => cases hu
        | cons y us =>
          rw [earliest] at hn
          split at hn
          · cases hn
          · split at hn <;> cases hn
    · rename_i y hy
      split at h
      · rename_i hlt
        cases h
        rcases List.mem_cons.1 hu with rfl | hu
        · omega
        · exact ih hy u hu
      · rename_i hlt
        cases h
        rcases List.mem_cons.1 hu with rfl | hu
        · exact Nat.le_refl _
        · have := ih hy u hu; omega

theorem ackDue_le {c : Client} {u : Nat} (h : u ∈ c.ops.timeouts) :
    ∃ v ∈ c.ops.timeouts, c.ackDue = deadlineOf c.ops.unacked v ∧ c.ackDue ≤ deadlineOf c.ops.unacked u := by
  unfold Client.ackDue
  split
  · rename_i hn
    exfalso
    cases ht : c.ops.timeouts with
    | nil => rw [ht] at h; cases h
    | cons y us =>
      rw [ht, earliest] at hn
      split at hn
      · cases hn
      · split at hn <;> cases hn
  · rename_i v hv
    exact ⟨v, earliest_mem hv, rfl, earliest_le hv u h⟩

theorem deadlineOf_eq {c : Client} (hh : HeldInv c) {op : Op} (h : op ∈ c.ops.unacked) :
    deadlineOf c.ops.unacked op.uid = op.deadline := by
  unfold deadlineOf
  split
  · rename_i o ho
    have h1 := List.mem_of_find?_eq_some ho
    have h2 : o.uid = op.uid := by simpa using List.find?_some ho
    rw [uid_unique hh.unackedOnce h1 h h2]
  · rename_i hn
    have := List.find?_eq_none.1 hn op h
    simp at this

/-- The service task is not scheduled again. -/
theorem still_step {cfg : Config} {c c' : Client} {e : Event} (h : step cfg c e = .ok c')
    (hs : c'.ctl.state.open = true) (hr : reevaluates cfg c e c' = false) :
    c'.ctl.state = c.ctl.state ∧ c'.ctl.desired = c.ctl.desired ∧ c'.ops.unacked = c.ops.unacked ∧
      (∀ u ∈ c'.ops.timeouts, u ∈ c.ops.timeouts) ∧ ∀ env, e ≠ .service env := by
  cases e with
  | submit p t x =>
    injection h with h
    subst h
    unfold Client.submit
    split
    · exact ⟨rfl, rfl, rfl, fun _ => id, by simp⟩
    · split
      · exact ⟨rfl, rfl, rfl, fun _ => id, by simp⟩
      · exact ⟨rfl, rfl, rfl, fun _ => id, by simp⟩
  | setDesired d v =>
    injection h with h
    subst h
    have hd : c.ctl.desired = d := by simpa [reevaluates] using hr
    unfold Client.setDesired
    rw [if_pos hd]
    exact ⟨rfl, rfl, rfl, fun _ => id, by simp⟩
  | service env =>
    simp only [reevaluates, bne_eq_false_iff_eq] at hr
    rw [hr] at hs; cases hs
  | setup err now => simp [reevaluates] at hr
  | shutdown e => simp [reevaluates] at hr
  | writeComplete e =>
    injection h with h
    subst h
    simp only [reevaluates] at hr
    exfalso
    have hk : (c.writeComplete e).ctl = c.ctl.onCompleteAll c.ops.writing e := by
      simp [Client.writeComplete, hr]
    rw [hk] at hs
    rcases (onCompleteAll_cases c.ctl c.ops.writing e).2 with hx | hx
    · rw [hx, hr] at hs; cases hs
    · rw [hx] at hs; cases hs
  | packet p a now => simp [reevaluates] at hr
  | readFailed e =>
    injection h with h
    subst h
    simp only [reevaluates, bne_eq_false_iff_eq] at hr
    refine ⟨hr, ?_, ?_, ?_, by simp⟩
    · unfold Client.readFailed
      split
      · exact shutdownClean_wants ..
      · exact shutdownChannel_wants ..
    · unfold Client.readFailed
      split
      · unfold Client.shutdownClean Client.shutdownWith; split
        · rfl
        · split <;> rfl
      · rfl
    · unfold Client.readFailed
      split
      · unfold Client.shutdownClean Client.shutdownWith; split
        · exact fun _ => id
        · split <;> exact fun _ => id
      · exact fun _ => id
  | invoke ctl =>
    injection h with h
    subst h
    simp only [reevaluates, Option.isSome_eq_false_iff, Option.isNone_iff_eq_none] at hr
    rcases invoke_queue c.ops ctl with ⟨id, s1, h1, _⟩ | ⟨_, hs, hl, _⟩
    · rw [h1] at hr; cases hr
    · exact ⟨rfl, rfl, hs.unacked, fun u hu => hs.timeouts ▸ hu, by simp⟩
  | resetConnection =>
    injection h with h
    subst h
    simp only [reevaluates, bne_eq_false_iff_eq] at hr
    refine ⟨hr, ?_, ?_, ?_, by simp⟩
    · unfold Client.resetConnection
      split
      · exact shutdownChannel_wants ..
      · exact shutdownChannel_wants ..
      · rfl
      · rfl
    · unfold Client.resetConnection; split <;> rfl
    · unfold Client.resetConnection; split <;> exact fun _ => id

/-- The states in which ack timeouts are watched. -/
def Watched (k : Control) : Prop := (k.state = .connected ∧ k.desired = .connected) ∨ k.state = .cleanDisconnect

theorem nextService_ack {cfg : Config} {c : Client} {w : Waits} {now : Nat} (hw : Watched c.ctl) (hn : 0 < now)
    (hp : c.ctl.state = .connected → 0 < c.ctl.nextPing) (ha : 0 < c.ackDue) :
    0 < c.nextService cfg w now ∧ c.nextService cfg w now ≤ c.ackDue := by
  rcases hw with ⟨hs, hd⟩ | hs
  · refine ⟨(nextService_connected hs hn (hp hs)).1, ?_⟩
    unfold Client.nextService
    rw [hs]
    unfold Client.connectedTime
    simp only
    generalize hd' : (if c.ctl.pingTimeout ≠ 0 then min c.ctl.nextPing c.ctl.pingTimeout else c.ctl.nextPing) = d
    generalize (c.serviceTime cfg w.throughput w.publish now).getD 0 = st
    have h2 : 0 < minNonZero d c.ackDue := minNonZero_pos ha
    have h3 : minNonZero d c.ackDue ≤ c.ackDue := minNonZero_le ha
    simp only [hd, ne_eq, not_true, if_false]
    have h4 := minNonZero_le (a := st) h2
    have h5 := minNonZero_le (a := w.resetAt) (minNonZero_pos (a := st) h2)
    omega
  · unfold Client.nextService
    rw [hs]
    exact ⟨minNonZero_left ha, minNonZero_le_left ha⟩

/-- The service task is scheduled for the first ack timeout at the latest. -/
def Alarmed (x : Clocked) : Prop :=
  Watched x.client.ctl → ∀ op ∈ x.client.ops.unacked, op.uid ∈ x.client.ops.timeouts →
    0 < x.scheduled ∧ x.scheduled ≤ op.deadline

theorem alarmed_step {cfg : Config} {late t : Nat} {x y : Clocked} {e : Event} (h : Alarmed x)
    (hi : Inv y.client) (ht : TimerInv y) (hd : ∀ op ∈ y.client.ops.unacked, op.uid ∈ y.client.ops.timeouts →
      0 < op.deadline) (hc : 0 < x.clock) (hs : Timed.Step cfg late x t e y) : Alarmed y := by
  cases hs with
  | @mk _ now _ c' w hst he hstep hr h1 h2 =>
    intro hw op hop hu
    simp only at hw hop hu hi hd
    have hpos : 0 < now := by have := hst.1; omega
    simp only
    split
    · rw [reevaluate_eq]
      obtain ⟨v, hv, hv1, hv2⟩ := ackDue_le hu
      rw [deadlineOf_eq hi.held hop] at hv2
      have ha : 0 < c'.ackDue := by
        obtain ⟨o, ho, hou⟩ := hi.live.tmo v hv
        rw [hv1, ← hou, deadlineOf_eq hi.held ho]
        exact hd o ho (hou ▸ hv)
      obtain ⟨g1, g2⟩ := nextService_ack (cfg := cfg) (w := w) hw hpos ht.ping ha
      exact ⟨g1, Nat.le_trans g2 hv2⟩
    · rename_i hre
      have hst' : c'.ctl.state.open = true := by rcases hw with hw | hw <;> simp [hw, State.open]
      obtain ⟨k1, k2, k3, k4, k5⟩ := still_step hstep hst' (by simpa using hre)
      have := h (by unfold Watched at hw ⊢; rwa [k1, k2] at hw) op (k3 ▸ hop) (k4 _ hu)
      cases e with
      | service env => exact absurd rfl (k5 env)
      | _ => exact this

theorem stamped_alarmed {cfg : Config} {late : Nat} {x : Clocked} {l : List Stamp} (h : Stamped cfg late x l) :
    Alarmed x := by
  induction h with
  | new t ht => intro hw; rcases hw with ⟨hw, _⟩ | hw <;> cases hw
  | @step x y t e l new hx hs hn ih =>
    have hy := Stamped.step hx hs hn
    refine alarmed_step ih (reachable_Inv (timed_reachable hy.timed)) (timed_timer hy.timed) ?_
      (timed_timer hx.timed).clock hs
    intro op ho hu
    obtain ⟨b, b', _, h2, h3, _⟩ := (stamped_ack hy).sent op ho hu
    exact Nat.lt_of_lt_of_le (dueFrom_pos h2) h3

end Mqtt.Client5
