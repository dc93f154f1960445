import Verif.Lemmas.Client5Ack
import Verif.Lemmas.Client5Ids

/-!
When operations in flight of the MQTT 5 client time out.
-/
namespace Mqtt.Client5

open Mqtt.V5

/-- The deadline of an operation sent at time `t`. -/
def dueFrom (cfg : Config) (s t : Nat) : Nat := (timesOutAt cfg s t).getD 18446744073709551615

theorem convert_second (k : Nat) : Reconnect.convert k 1 1000000000 = min (k * 1000000000) 18446744073709551615 := by
  have : Reconnect.convert k 1 1000000000 = Reconnect.addSat (Reconnect.mulSat k 1000000000) 0 := by
    unfold Reconnect.convert
    simp [Reconnect.mulSat]
  rw [this]
  unfold Reconnect.addSat Reconnect.mulSat
  omega

theorem dueFrom_eq (cfg : Config) (s t : Nat) : dueFrom cfg s t =
    if (if s = 0 then cfg.ackTimeoutSeconds else s) = 0 then 18446744073709551615
    else t + min ((if s = 0 then cfg.ackTimeoutSeconds else s) * 1000000000) 18446744073709551615 := by
  unfold dueFrom timesOutAt
  dsimp only
  generalize (if s = 0 then cfg.ackTimeoutSeconds else s) = s
  generalize 18446744073709551615 = m
  by_cases h : s = 0
  · rw [if_pos h, if_pos h, Option.getD_none]
  · rw [if_neg h, if_neg h, Option.getD_some]

theorem ackDeadline_eq (cfg : Config) (op : Op) (now : Nat) :
    ackDeadline cfg op now = dueFrom cfg op.ackTimeoutSeconds now := by
  unfold ackDeadline
  rw [dueFrom_eq]
  dsimp only
  rw [convert_second]
  generalize (if op.ackTimeoutSeconds = 0 then cfg.ackTimeoutSeconds else op.ackTimeoutSeconds) = s
  generalize 18446744073709551615 = m
  by_cases h : s = 0
  · rw [if_neg (by omega), if_pos h]
  · rw [if_pos (by omega), if_neg h]

theorem dueFrom_mono {cfg : Config} {s t t' : Nat} (h : t ≤ t') : dueFrom cfg s t ≤ dueFrom cfg s t' := by
  rw [dueFrom_eq, dueFrom_eq]
  generalize (if s = 0 then cfg.ackTimeoutSeconds else s) = s
  generalize 18446744073709551615 = m
  by_cases h : s = 0
  · rw [if_pos h, if_pos h]; exact Nat.le_refl _
  · rw [if_neg h, if_neg h]; omega

theorem dueFrom_pos {cfg : Config} {s t : Nat} (h : 0 < t) : 0 < dueFrom cfg s t := by
  rw [dueFrom_eq]
  generalize (if s = 0 then cfg.ackTimeoutSeconds else s) = s
  by_cases h : s = 0
  · rw [if_pos h]; omega
  · rw [if_neg h]; omega

/-! ## Stamped effects -/

theorem Asked.mono {l l' : List Stamp} {u s : Nat} (h : Asked l u s) : Asked (l ++ l') u s := by
  obtain ⟨m, hm, h⟩ := h
  exact ⟨m, List.mem_append_left _ hm, h⟩

theorem sentAt_append (u : Nat) (l l' : List Stamp) : sentAt u (l ++ l') = l'.foldl (sentOne u) (sentAt u l) := by
  simp [sentAt]

theorem sentAt_idle {u : Nat} {l : List Stamp} {new : List Effect} {e : Event} {t t' : Nat}
    (h : ∀ f ∈ new, f.idle = true) : sentAt u (l ++ new.map fun f => ⟨f, e, t, t'⟩) = sentAt u l := by
  rw [sentAt_append]
  generalize sentAt u l = r
  induction new generalizing r with
  | nil => rfl
  | cons f new ih =>
    rw [List.map_cons, List.foldl_cons, ih fun x hx => h x (by simp [hx])]
    have := h f (by simp)
    cases f <;> simp [Effect.idle] at this <;> simp [sentOne, this]

/-- The invariant. -/
structure AckInv (cfg : Config) (l : List Stamp) (c : Client) : Prop where
  effects : l.map (·.effect) = c.ops.log
  sent : ∀ op ∈ c.ops.unacked, op.uid ∈ c.ops.timeouts → ∃ b b', sentAt op.uid l = some (b, b') ∧ 0 < b ∧
    dueFrom cfg op.ackTimeoutSeconds b ≤ op.deadline ∧ op.deadline ≤ dueFrom cfg op.ackTimeoutSeconds b'
  fine : ∀ l1 m l2 u p a, l = l1 ++ m :: l2 → m.effect = .completed u p .timeout a → requiresAck p = true →
    ∃ s b b', Asked l1 u s ∧ sentAt u l1 = some (b, b') ∧ dueFrom cfg s b ≤ m.stop
  asked : ∀ op ∈ c.ops.held, isUser op.packet = true → Asked l op.uid op.ackTimeoutSeconds
  whole : (Shares c.ops.log ∧ 65535 ≤ setUps c.ops.log) ∨ (live c.ops.log = true → (∀ op ∈ c.ops.unacked, op.uid ∈ c.ops.timeouts) ∧
    ∀ op ∈ c.ops.unacked, c.ops.table.get (packetId op.packet) = some op.uid)

theorem ack_new (cfg : Config) : AckInv cfg [] (Client.new cfg) := by
  refine ⟨rfl, by simp [Client.new], by simp, by simp [Client.new, OpState.held], .inr (by simp [Client.new, live])⟩

/-- What an event reads that starts at `t` and ends at `t'`. -/
def readings (e : Event) (t t' : Nat) : Readings :=
  ⟨fun n => t ≤ n ∧ n ≤ t', fun p s => ∃ x, e = .submit p s x, True⟩

theorem readings_of {t t' : Nat} {e : Event} (h : Reads t t' e) : (readings e t t').of e := by
  cases e with
  | service env => exact ⟨h.1, h.2.2.2⟩
  | submit p s x => exact ⟨x, rfl⟩
  | _ => trivial

theorem Shares.mono {log new : List Effect} (h : Shares log) : Shares (log ++ new) := by
  obtain ⟨l, l', rfl, h⟩ := h
  exact ⟨l, l' ++ new, by simp, h⟩

theorem shared_mono {log new : List Effect} (h : Shares log ∧ 65535 ≤ setUps log) :
    Shares (log ++ new) ∧ 65535 ≤ setUps (log ++ new) := by
  refine ⟨h.1.mono, ?_⟩
  rw [setUps_append]
  omega

/-- Until packet ids have been given out 65535 times they are unique. -/
theorem apart_pairwise {c : Client} (hi : Inv c) (hid : setUps c.ops.log ≤ 65534 → IdInv c)
    (hl : live c.ops.log = true) (hp : ¬(inFlight c.ops.log).Pairwise fun a b => packetId a.2 ≠ packetId b.2) :
    65535 ≤ setUps c.ops.log := by
  refine Nat.lt_of_not_le fun hb => hp ?_
  rw [inFlight, hi.track.flying hl, List.pairwise_map]
  have hu : (c.ops.unacked.map (·.uid)).Nodup := List.nodup_iff_count.2 hi.held.unackedOnce
  rw [List.Nodup, List.pairwise_map] at hu
  refine hu.imp_of_mem fun {a b} ha hb' hne hab => hne ?_
  refine (hid hb).apart a (by simp [OpState.held, ha]) b (by simp [OpState.held, hb']) ?_ hab
  have := hi.live.nonzero hl a ha
  omega

theorem append_split {α : Type _} {l new l1 l2 : List α} {m : α} (h : l ++ new = l1 ++ m :: l2) :
    (∃ l3, l = l1 ++ m :: l3) ∨ ∃ n1, l1 = l ++ n1 ∧ new = n1 ++ m :: l2 := by
  rcases List.append_eq_append_iff.1 h with ⟨n1, h1, h2⟩ | ⟨n1, h1, h2⟩
  · exact .inr ⟨n1, h1, h2⟩
  · cases n1 with
    | nil => exact .inr ⟨[], by simpa using h1.symm, by simpa using h2.symm⟩
    | cons x n1 =>
      simp only [List.cons_append, List.cons.injEq] at h2
      obtain ⟨rfl, rfl⟩ := h2
      exact .inl ⟨n1, h1⟩

/-- New effects with which no operation times out. -/
theorem fine_append {cfg : Config} {l : List Stamp} {new : List Effect} {e : Event} {t t' : Nat}
    (h : ∀ l1 m l2 u p a, l = l1 ++ m :: l2 → m.effect = .completed u p .timeout a → requiresAck p = true →
      ∃ s b b', Asked l1 u s ∧ sentAt u l1 = some (b, b') ∧ dueFrom cfg s b ≤ m.stop)
    (hn : ∀ f ∈ new, ∀ u p a, f = .completed u p .timeout a → requiresAck p = false) :
    ∀ l1 m l2 u p a, (l ++ new.map fun f => ⟨f, e, t, t'⟩) = l1 ++ m :: l2 →
      m.effect = .completed u p .timeout a → requiresAck p = true →
      ∃ s b b', Asked l1 u s ∧ sentAt u l1 = some (b, b') ∧ dueFrom cfg s b ≤ m.stop := by
  intro l1 m l2 u p a hl hm hp
  rcases append_split hl with ⟨l3, hl⟩ | ⟨n1, _, hx⟩
  · exact h l1 m l3 u p a hl hm hp
  · have : m ∈ new.map fun f => (⟨f, e, t, t'⟩ : Stamp) := by rw [hx]; simp
    obtain ⟨f, hf, rfl⟩ := List.mem_map.1 this
    rw [hn f hf u p a hm] at hp
    cases hp

theorem idle_fine {new : List Effect} (h : ∀ f ∈ new, f.idle = true) :
    ∀ f ∈ new, ∀ u p a, f = .completed u p .timeout a → requiresAck p = false := by
  intro f hf u p a hx
  subst hx
  simpa [Effect.idle] using h _ hf

theorem ack_move {cfg : Config} {l : List Stamp} {e : Event} {t t' : Nat} {c c' : Client} (h : AckInv cfg l c)
    (hi : Inv c) (hi' : Inv c') (hid : setUps c'.ops.log ≤ 65534 → IdInv c') (ht : 0 < t) (m : MoveG (readings e t t') cfg c c') :
    ∃ new, c'.ops.log = c.ops.log ++ new ∧ AckInv cfg (l ++ new.map fun f => ⟨f, e, t, t'⟩) c' := by
  obtain ⟨new, hlog, ha⟩ := move_ack hi.held hi.live m
  refine ⟨new, hlog, ?_⟩
  have heff : (l ++ new.map fun f => (⟨f, e, t, t'⟩ : Stamp)).map (·.effect) = c'.ops.log := by
    rw [List.map_append, h.effects, hlog, List.map_map]
    congr 1
    exact List.map_id _
  have hasked : ∀ op ∈ c'.ops.held, isUser op.packet = true →
      Asked (l ++ new.map fun f => ⟨f, e, t, t'⟩) op.uid op.ackTimeoutSeconds := by
    intro op ho hu
    rcases move_lent m op ho with ⟨o, ho', h1, h2, h3⟩ | hx | ⟨p, q, ⟨x, hg⟩, hx⟩
    · rw [← h1, ← h3]; exact (h.asked o ho' (h2.trans hu)).mono
    · rw [hx] at hu; cases hu
    · rw [hlog, List.append_cancel_left_eq] at hx
      subst hx
      exact ⟨⟨.submitted op.uid q, e, t, t'⟩, by simp, p, q, x, rfl, hg⟩
  cases ha with
  | fewer hf hn =>
    refine ⟨heff, ?_, fine_append h.fine (idle_fine hn), hasked, ?_⟩
    · intro op ho hu
      rw [sentAt_idle hn]
      exact h.sent op (hf.ops op ho) (hf.heap _ hu)
    · rcases h.whole with hw | hw
      · rw [hlog]; exact .inl (shared_mono hw)
      · refine .inr fun hl => ?_
        have hl' : live c.ops.log = true := by
          rw [hlog] at hl
          rwa [live_append] at hl
          intro f hx
          have := hn f hx
          cases f <;> simp [Effect.idle] at this <;> rfl
        obtain ⟨w1, w2⟩ := hw hl'
        exact ⟨fun op ho => hf.stay op ho (w1 op (hf.ops op ho)), hf.table w2⟩
  | forgot op hn hop htab hun htm =>
    subst hn
    simp only [List.map_nil, List.append_nil] at heff hasked hlog ⊢
    refine ⟨heff, ?_, h.fine, hasked, ?_⟩
    · intro o ho hu
      exact h.sent o (hun ▸ ho) (htm _ hu)
    · rw [hlog]
      rcases h.whole with hw | hw
      · exact .inl hw
      · refine .inr fun hl => ?_
        rw [(hw hl).2 op hop] at htab
        cases htab
  | sent op now hc hr hg hn hun htm htab =>
    subst hn
    obtain ⟨o, hun, ho1, ho2, ho3, ho4⟩ := hun
    have hdis : ∀ o' ∈ c.ops.unacked, o'.uid ≠ op.uid := by
      intro o' ho' hx
      have hone := hi.held.once op.uid
      unfold places OpState.held born at hone
      simp only [List.map_append, List.count_append, hc, Option.toList_some, List.map_cons, List.map_nil,
        List.count_singleton, beq_self_eq_true, if_true] at hone
      have h1 : 0 < (c.ops.unacked.map (·.uid)).count op.uid := List.count_pos_iff.2 (List.mem_map.2 ⟨o', ho', hx⟩)
      split at hone <;> omega
    refine ⟨heff, ?_, fine_append h.fine (by simp), hasked, ?_⟩
    · intro o' ho' hu
      rw [hun, List.mem_append, List.mem_singleton] at ho'
      rw [sentAt_append]
      rcases ho' with ho' | rfl
      · have hne := hdis o' ho'
        rw [htm, List.mem_append, List.mem_singleton] at hu
        have hx : ¬(op.uid = o'.uid ∧ requiresAck op.packet = true) := fun hx => hne hx.1.symm
        simp only [List.map_cons, List.map_nil, List.foldl_cons, List.foldl_nil, sentOne, if_neg hx]
        exact h.sent o' ho' (hu.resolve_right hne)
      · refine ⟨t, t', ?_, ht, ?_, ?_⟩
        · simp [sentOne, ho1, hr]
        · rw [ho4, ackDeadline_eq, ho3]; exact dueFrom_mono hg.1
        · rw [ho4, ackDeadline_eq, ho3]; exact dueFrom_mono hg.2
    · rcases h.whole with hw | hw
      · rw [hlog]; exact .inl (shared_mono hw)
      · by_cases hs : live c'.ops.log = true ∧
            ¬(inFlight c'.ops.log).Pairwise fun a b => packetId a.2 ≠ packetId b.2
        · exact .inl ⟨⟨c'.ops.log, [], by simp, hs.2⟩, apart_pairwise hi' hid hs.1 hs.2⟩
        · refine .inr fun hl => ?_
          have hl' : live c.ops.log = true := by
            rw [hlog] at hl
            rwa [live_append (by simp [Effect.phase])] at hl
          obtain ⟨w1, w2⟩ := hw hl'
          have hpair : (inFlight c'.ops.log).Pairwise fun a b => packetId a.2 ≠ packetId b.2 := by
            by_cases hp : (inFlight c'.ops.log).Pairwise fun a b => packetId a.2 ≠ packetId b.2
            · exact hp
            · exact absurd ⟨hl, hp⟩ hs
          rw [inFlight, hi'.track.flying hl, List.pairwise_map, hun, List.pairwise_append] at hpair
          refine ⟨fun o' ho' => ?_, fun o' ho' => ?_⟩
          · rw [hun, List.mem_append, List.mem_singleton] at ho'
            rw [htm, List.mem_append, List.mem_singleton]
            rcases ho' with ho' | rfl
            · exact .inl (w1 o' ho')
            · exact .inr ho1
          · rw [hun, List.mem_append, List.mem_singleton] at ho'
            rw [htab, AMap.get_set]
            rcases ho' with ho' | rfl
            · have := hpair.2.2 o' ho' o (by simp)
              rw [ho2] at this
              rw [if_neg this]
              exact w2 o' ho'
            · rw [ho2, if_pos rfl, ho1]
  | timed op now hop hm hg hd hn hf =>
    subst hn
    refine ⟨heff, ?_, ?_, hasked, ?_⟩
    · intro o ho hu
      obtain ⟨b, b', h1, h2⟩ := h.sent o (hf.ops o ho) (hf.heap _ hu)
      exact ⟨b, b', by rw [sentAt_append]; exact h1, h2⟩
    · intro l1 m l2 u p a hl hme hp
      rcases append_split hl with ⟨l3, hl⟩ | ⟨n1, h1, hx⟩
      · exact h.fine l1 m l3 u p a hl hme hp
      · cases n1 with
        | nil =>
          simp only [List.map_cons, List.map_nil, List.nil_append, List.cons.injEq] at hx
          obtain ⟨rfl, _⟩ := hx
          injection hme with hu hpk
          subst hu
          subst hpk
          obtain ⟨b, b', g1, g2, g3, g4⟩ := h.sent op hop hm
          refine ⟨op.ackTimeoutSeconds, b, b', ?_, ?_, ?_⟩
          · rw [h1, List.append_nil]
            exact h.asked op (by simp [OpState.held, hop]) (by
              cases hk : op.packet <;> rw [hk] at hp <;> first | rfl | cases hp)
          · rw [h1, List.append_nil]; exact g1
          · exact Nat.le_trans g3 (Nat.le_trans hd hg.2)
        | cons x n1 =>
          simp at hx
    · rcases h.whole with hw | hw
      · rw [hlog]; exact .inl (shared_mono hw)
      · refine .inr fun hl => ?_
        have hl' : live c.ops.log = true := by
          rw [hlog] at hl
          rwa [live_append (by simp [Effect.phase])] at hl
        obtain ⟨w1, w2⟩ := hw hl'
        exact ⟨fun o ho => hf.stay o ho (w1 o (hf.ops o ho)), hf.table w2⟩
  | ended htm hun hn =>
    refine ⟨heff, ?_, fine_append h.fine ?_, hasked, ?_⟩
    · intro o _ hu
      rw [htm] at hu
      cases hu
    · intro f hf u p a hx
      exact absurd hx ((hn f hf).2 u p a)
    · refine .inr fun hl => ?_
      rcases hun with hun | ⟨l', hx⟩
      · rw [hun]; simp
      · exfalso
        rw [hlog, hx, ← List.append_assoc] at hl
        simp [live] at hl

theorem Stamped.timed {cfg : Config} {late : Nat} {x : Clocked} {l : List Stamp} (h : Stamped cfg late x l) :
    Timed cfg late x := by
  induction h with
  | new t ht => exact .new t ht
  | step _ hs _ ih => exact .step ih hs

theorem Timed.stamped {cfg : Config} {late : Nat} {x : Clocked} (h : Timed cfg late x) :
    ∃ l, Stamped cfg late x l := by
  induction h with
  | new t ht => exact ⟨[], .new t ht⟩
  | @step x y t e _ hs ih =>
    obtain ⟨l, hl⟩ := ih
    have : ∃ new, y.client.ops.log = x.client.ops.log ++ new := by
      cases hs with
      | mk w _ he hstep _ _ _ =>
        have key : ∀ {c c' : Client}, Moves cfg c c' → ∃ new, c'.ops.log = c.ops.log ++ new := by
          intro c c' m
          induction m with
          | nil => exact ⟨[], by simp⟩
          | cons m _ ih =>
            obtain ⟨n1, h1, _⟩ := move_log m
            obtain ⟨n2, h2⟩ := ih
            exact ⟨n1 ++ n2, by rw [h2, h1, List.append_assoc]⟩
        exact key (step_moves he hstep)
    obtain ⟨new, hn⟩ := this
    exact ⟨_, .step hl hs hn⟩

theorem ack_moves {cfg : Config} {e : Event} {t t' : Nat} {c c' : Client} (ht : 0 < t)
    (m : MovesG (readings e t t') cfg c c') : ∀ {l : List Stamp}, AckInv cfg l c → Inv c →
    (setUps c.ops.log ≤ 65534 → IdInv c) → ∃ new, c'.ops.log = c.ops.log ++ new ∧ AckInv cfg (l ++ new.map fun f => ⟨f, e, t, t'⟩) c' := by
  induction m with
  | nil => intro l h _ _; exact ⟨[], by simp, by simpa using h⟩
  | @cons c1 c2 _ m _ ih =>
    intro l h hi hid
    have hi' : Inv _ := ⟨held_move hi.held m.any, live_move hi.held hi.live m.any,
      track_move hi.held hi.live hi.track m.any⟩
    have hid' : setUps c2.ops.log ≤ 65534 → IdInv c2 := by
      intro hb
      obtain ⟨new, hlog, _⟩ := move_log m.any
      refine id_move hi (hid ?_) m.any hb
      rw [hlog, setUps_append] at hb
      omega
    obtain ⟨n1, h1, a1⟩ := ack_move h hi hi' hid' ht m
    obtain ⟨n2, h2, a2⟩ := ih a1 hi' hid'
    refine ⟨n1 ++ n2, by rw [h2, h1, List.append_assoc], ?_⟩
    rw [List.map_append, ← List.append_assoc]
    exact a2

theorem stamped_ack {cfg : Config} {late : Nat} {x : Clocked} {l : List Stamp} (h : Stamped cfg late x l) :
    AckInv cfg l x.client := by
  induction h with
  | new t ht => exact ack_new cfg
  | @step x y t e l new hx hs hn ih =>
    obtain ⟨hi, hid⟩ := reachable_ids (timed_reachable hx.timed)
    have ht := (timed_timer hx.timed).clock
    cases hs with
    | mk w hst he hstep hr h1 h2 =>
      obtain ⟨new', hn', ha⟩ := ack_moves (Nat.lt_of_lt_of_le ht hst.1) (step_movesG he hstep (readings_of hr) fun _ => trivial) ih hi
        hid
      rw [hn] at hn'
      simp only [List.append_cancel_left_eq] at hn'
      subst hn'
      exact ha

/-- Every number stands for one submission. -/
theorem asked_once {cfg : Config} {late : Nat} {x : Clocked} {l : List Stamp} (h : Stamped cfg late x l) :
    ∀ u s s', Asked l u s → Asked l u s' → s = s' := by
  induction h with
  | new t ht => rintro u s s' ⟨m, hm, _⟩; cases hm
  | @step x y t e l new hx hs hn ih =>
    have hlt : ∀ u s, Asked l u s → u < x.client.ops.nextUid := by
      rintro u s ⟨m, hm, p, q, z, h1, _⟩
      refine submitted_lt (timed_reachable hx.timed) u q ?_
      rw [← (stamped_ack hx).effects, ← h1]
      exact List.mem_map.2 ⟨m, hm, rfl⟩
    have hge : ∀ u q, .submitted u q ∈ new → x.client.ops.nextUid ≤ u := by
      cases hs with
      | mk w _ he hstep _ _ _ =>
        have key : ∀ {c c' : Client}, Moves cfg c c' → ∃ new, c'.ops.log = c.ops.log ++ new ∧
            c.ops.nextUid ≤ c'.ops.nextUid ∧ ∀ u q, .submitted u q ∈ new → c.ops.nextUid ≤ u := by
          intro c c' m
          induction m with
          | nil => exact ⟨[], by simp, Nat.le_refl _, by simp⟩
          | cons m _ ih =>
            obtain ⟨n1, h1, h2, h3, _⟩ := move_log m
            obtain ⟨n2, h4, h5, h6⟩ := ih
            refine ⟨n1 ++ n2, by rw [h4, h1, List.append_assoc], by omega, ?_⟩
            intro u q hu
            rcases List.mem_append.1 hu with hu | hu
            · have := h3 u q hu; omega
            · have := h6 u q hu; omega
        obtain ⟨n, h1, _, h3⟩ := key (step_moves he hstep)
        rw [hn] at h1
        simp only [List.append_cancel_left_eq] at h1
        subst h1
        exact h3
    have hcase : ∀ u s, Asked (l ++ new.map fun f => ⟨f, e, t, y.clock⟩) u s →
        Asked l u s ∨ (x.client.ops.nextUid ≤ u ∧ ∃ p z, e = .submit p s z) := by
      rintro u s ⟨m, hm, p, q, z, h1, h2⟩
      rcases List.mem_append.1 hm with hm | hm
      · exact .inl ⟨m, hm, p, q, z, h1, h2⟩
      · obtain ⟨f, hf, rfl⟩ := List.mem_map.1 hm
        exact .inr ⟨hge u q (h1 ▸ hf), p, z, h2⟩
    intro u s s' h1 h2
    rcases hcase u s h1 with h1 | ⟨g1, p, z, k1⟩ <;> rcases hcase u s' h2 with h2 | ⟨g2, p', z', k2⟩
    · exact ih u s s' h1 h2
    · have := hlt u s h1; omega
    · have := hlt u s' h2; omega
    · rw [k1] at k2; injection k2

end Mqtt.Client5
