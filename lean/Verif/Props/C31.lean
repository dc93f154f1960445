import Verif.Lemmas.Client5Stats
import Verif.Lemmas.Client5Origin
import Verif.Props.C27

/-!
C31: which operations survive a disconnect of the MQTT 5 client.
-/
namespace Mqtt.Props
open Mqtt.Client5 Mqtt.V5

/-- The operations each offline queue behaviour keeps, by their kind (include/aws/mqtt/v5/mqtt5_client.h:185-215). -/
def Survives (b : OfflineBehavior) : Outgoing → Prop
  | .publish v => v.qos ≠ 0 ∧ b ≠ .failAll
  | .subscribe _ => b = .failQos0
  | .unsubscribe _ => b = .failQos0
  | _ => False

theorem retained_iff (b : OfflineBehavior) (p : Outgoing) : retained b p = true ↔ Survives b p := by
  cases b <;> cases p <;> simp [retained, Survives, isUser, isPublish, isQos1]

theorem retained_plain (b : OfflineBehavior) (p : Outgoing) : retained b (plainPacket p) = retained b p := by
  cases b <;> cases p <;> rfl

theorem retained_congr {b : OfflineBehavior} {p q : Outgoing} (h : plainPacket p = plainPacket q) :
    retained b p = retained b q := by
  rw [← retained_plain b p, h, retained_plain]

theorem pending_submitted {log : List Effect} {u : Nat} {p : Outgoing} (h : (u, p) ∈ pending log) :
    .submitted u p ∈ log := by
  suffices ∀ (l : List Effect) (a : List (Nat × Outgoing)), (u, p) ∈ l.foldl pendingOne a →
      (u, p) ∈ a ∨ .submitted u p ∈ l by
    rcases this log [] h with h | h
    · cases h
    · exact h
  intro l
  induction l with
  | nil => intro a h; exact .inl h
  | cons e l ih =>
    intro a h
    rcases ih _ h with h | h
    · cases e with
      | submitted v q =>
        simp only [pendingOne, List.mem_append, List.mem_singleton, Prod.mk.injEq] at h
        rcases h with h | ⟨rfl, rfl⟩
        · exact .inl h
        · exact .inr (List.mem_cons_self ..)
      | completed v q e a => exact .inl (List.mem_filter.1 h).1
      | _ => exact .inl h
    · exact .inr (List.mem_cons_of_mem _ h)

/-- After completions, what is pending is what was and is not among them. -/
theorem pending_completions (l : List Effect) (ops : List Op) (e : Error) (u : Nat) (p : Outgoing) :
    (u, p) ∈ pending (l ++ completions ops e) ↔ (u, p) ∈ pending l ∧ u ∉ ops.map (·.uid) := by
  rw [pending_append]
  generalize pending l = t
  induction ops generalizing t with
  | nil => simp [completions]
  | cons op ops ih =>
    have := ih (pendingOne t (.completed op.uid op.packet e none))
    simp only [completions, List.map_cons, List.foldl_cons] at this ⊢
    rw [this]
    simp only [pendingOne, List.mem_filter, bne_iff_ne, ne_eq, List.mem_cons, not_or]
    constructor
    · rintro ⟨⟨h1, h2⟩, h3⟩; exact ⟨h1, h2, h3⟩
    · rintro ⟨h1, h2, h3⟩; exact ⟨⟨h1, h2⟩, h3⟩

/-- The client holds what is pending and was not dropped. -/
theorem pending_held {cfg : Config} {c : Client} (h : Reachable cfg c) {u : Nat} {p : Outgoing}
    (hp : (u, p) ∈ pending c.ops.log) (hd : ¬Dropped c u) :
    ∃ op ∈ c.ops.held, op.uid = u ∧ isUser op.packet = true ∧ plainPacket op.packet = plainPacket p := by
  have hsub := pending_submitted hp
  obtain ⟨hi, hs⟩ := reachable_stat h
  have hhold : Holds c u := by
    rcases C27_partial h ⟨p, hsub⟩ with h1 | h1 | h1
    · rcases (submitted_first h).2 u p hp with h2 | h2
      · have h3 := gone_count c.ops.log u
        have h4 := h1.1
        unfold timesCompleted at h4
        have h5 := List.count_eq_zero_of_not_mem h2
        omega
      · exact absurd h2 hd
    · exact h1.2.1
    · exact absurd h1.2.2 hd
  obtain ⟨op, hu, ho⟩ := hhold
  have ho : op ∈ c.ops.held := by
    simp only [OpState.held, List.mem_append, Option.mem_toList]; exact ho
  have huser : isUser op.packet = true := by
    cases hx : isUser op.packet with
    | true => rfl
    | false => exact absurd (List.mem_map.2 ⟨(u, p), hp, hu.symm⟩) (hs.ledger.other op ho hx)
  obtain ⟨q, hq, _, hpl⟩ := reachable_origin h op ho huser
  rw [hu] at hq
  rw [submitted_unique h u q p hq hsub] at hpl
  exact ⟨op, ho, hu, huser, hpl.symm⟩

/-- It is pending if it was submitted and its completion callback has not been called. -/
theorem pending_of {c : Client} {u : Nat} {p : Outgoing} (hs : .submitted u p ∈ c.ops.log)
    (h0 : timesCompleted c u = 0) : (u, p) ∈ pending c.ops.log := by
  have h1 : ∀ e ∈ c.ops.log, isCompletion u e = false := fun e he => by
    have := List.countP_eq_zero.1 h0 e he
    simpa using this
  generalize c.ops.log = l at hs h1
  suffices ∀ (l : List Effect) (a : List (Nat × Outgoing)), (∀ e ∈ l, isCompletion u e = false) →
      ((u, p) ∈ a ∨ .submitted u p ∈ l) → (u, p) ∈ l.foldl pendingOne a from this l [] h1 (.inr hs)
  clear h1 hs l
  intro l
  induction l with
  | nil => intro a _ h; simpa using h
  | cons e l ih =>
    intro a hn h
    refine ih _ (fun e he => hn e (List.mem_cons_of_mem _ he)) ?_
    have hne := hn e (List.mem_cons_self ..)
    rcases h with h | h
    · left
      cases e with
      | submitted v q => exact List.mem_append_left _ h
      | completed v q e a =>
        simp only [isCompletion, beq_eq_false_iff_ne, ne_eq] at hne
        exact List.mem_filter.2 ⟨h, by simpa using Ne.symm hne⟩
      | _ => exact h
    · rcases List.mem_cons.1 h with h | h
      · subst h; exact .inl (List.mem_append_right _ (List.mem_singleton.2 rfl))
      · exact .inr h

theorem times_completions (l : List Effect) (ops : List Op) (e : Error) (u : Nat) :
    (l ++ completions ops e).countP (isCompletion u) = l.countP (isCompletion u) + (ops.map (·.uid)).count u := by
  rw [List.countP_append]
  congr 1
  induction ops with
  | nil => rfl
  | cons op ops ih =>
    simp only [completions, List.map_cons, List.countP_cons, List.count_cons, isCompletion] at ih ⊢
    rw [ih]
    rfl

theorem emitFinal_desired (k : Control) (e : Error) : (k.emitFinal e).desired = k.desired := by
  unfold Control.emitFinal; split <;> rfl

theorem shutdownChannel_desired (k : Control) (e : Error) : (k.shutdownChannel e).desired = k.desired := by
  unfold Control.shutdownChannel
  generalize (if e = .success then Error.other 0 else e) = e
  rw [← emitFinal_desired k e]
  dsimp only
  split
  · rfl
  · split <;> rfl

theorem onCompleteAll_desired (k : Control) (ops : List Op) (e : Error) : (k.onCompleteAll ops e).desired = k.desired := by
  unfold Control.onCompleteAll
  induction ops generalizing k with
  | nil => rfl
  | cons op ops ih =>
    rw [List.foldl_cons, ih]
    unfold Control.onComplete
    split
    · exact shutdownChannel_desired ..
    · rfl

theorem channelGone_desired (k : Control) (ops : List Op) (e : Error) : (k.channelGone ops e).desired = k.desired := by
  unfold Control.channelGone
  rw [onCompleteAll_desired]
  exact emitFinal_desired ..

/-- The connection, or an attempt at one, ends. -/
def Ends (e : Error) : Event → Prop
  | .shutdown e' => e' = e
  | .setup (some e') _ => e' = e
  | _ => False

theorem ends_step {cfg : Config} {c c' : Client} {e : Error} {ev : Event} (he : Ends e ev)
    (hs : Client5.step cfg c ev = .ok c') (hd : c.ctl.desired = .connected) : c'.ops = c.ops.onDisconnection cfg := by
  have key : ∀ e, (c.shutdownFinal cfg e).ops = c.ops.onDisconnection cfg := by
    intro e
    unfold Client.shutdownFinal
    simp only [channelGone_desired, hd, if_true]
  cases ev with
  | shutdown e' => cases hs; exact key _
  | setup err now =>
    cases err with
    | none => cases he
    | some e' => cases hs; exact key _
  | _ => cases he

/-- Kinds as the model's predicate sees them. -/
theorem isQos1_plain (p : Outgoing) : isQos1 (plainPacket p) = isQos1 p := by cases p <;> rfl

theorem isQos1_congr {p q : Outgoing} (h : plainPacket p = plainPacket q) : isQos1 p = isQos1 q := by
  rw [← isQos1_plain p, h, isQos1_plain]

theorem failsUnacked_mark (b : OfflineBehavior) (op : Op) :
    failsUnacked b (markDisconnected op).packet = failsUnacked b op.packet := by
  unfold markDisconnected
  split
  · rename_i v h
    split
    · rw [h]; cases b <;> rfl
    · rw [h]; cases b <;> rfl
  · rename_i p h
    cases b <;> cases h0 : op.packet <;> simp_all [failsUnacked, withPacketId, retained, isQos1, isUser, isPublish]

theorem mark_uid (op : Op) : (markDisconnected op).uid = op.uid := by
  unfold markDisconnected
  split
  · split <;> rfl
  · rfl

/-- The operations a disconnect fails. -/
theorem lost_iff {cfg : Config} {c : Client} (h : Reachable cfg c) {op : Op} (ho : op ∈ c.ops.held)
    (hu : isUser op.packet = true) :
    op.uid ∈ (c.ops.lostOnDisconnection cfg).map (·.uid) ↔
      ¬(retained cfg.offline op.packet = true ∨ isQos1 op.packet = true ∧ op.uid ∈ awaiting c.ops.log) := by
  obtain ⟨hi, hs⟩ := reachable_stat h
  have huniq := unique_of_map hs.ledger.uids
  have hq : ∀ o ∈ c.ops.queued, o ∈ c.ops.held := fun o h => by simp [OpState.held, h]
  have hc : ∀ o, c.ops.current = some o → o ∈ c.ops.held := fun o h => by simp [OpState.held, h]
  have hw : ∀ o ∈ c.ops.writing, o ∈ c.ops.held := fun o h => by simp [OpState.held, h]
  have hn : ∀ o ∈ c.ops.unacked, o ∈ c.ops.held := fun o h => by simp [OpState.held, h]
  have haw : op.uid ∈ awaiting c.ops.log ↔ op ∈ c.ops.unacked := by
    unfold awaiting
    rw [hi.track.awaiting, List.mem_map]
    exact ⟨fun ⟨o, h1, h2⟩ => huniq o (hn o h1) op ho h2 ▸ h1, fun h1 => ⟨op, h1, rfl⟩⟩
  rw [haw]
  -- the places of the operation exclude each other
  have hone : (c.ops.held.map (·.uid)).count op.uid ≤ 1 := List.nodup_iff_count.1 hs.ledger.uids _
  simp only [OpState.held, List.map_append, List.count_append] at hone
  have pos : ∀ {l : List Op}, op ∈ l → 0 < (l.map (·.uid)).count op.uid := fun h =>
    List.count_pos_iff.2 (List.mem_map.2 ⟨op, h, rfl⟩)
  have hmem : op.uid ∈ (c.ops.lostOnDisconnection cfg).map (·.uid) ↔ op ∈ c.ops.writing ∨
      ((op ∈ c.ops.current.toList ∨ op ∈ c.ops.queued) ∧ retained cfg.offline op.packet = false) ∨
      (op ∈ c.ops.unacked ∧ failsUnacked cfg.offline op.packet = true) := by
    simp only [OpState.lostOnDisconnection, lose, loseUnacked, List.map_append, List.mem_append, List.mem_map,
      List.mem_filter]
    constructor
    · rintro ((⟨o, h1, h2⟩ | ⟨o, ⟨h1, h3⟩, h2⟩) | ⟨o, ⟨⟨o', h1, rfl⟩, h3⟩, h2⟩)
      · have := huniq o (hw o h1) op ho h2; subst this; exact .inl h1
      · have : o ∈ c.ops.held := by
          rcases h1 with h1 | h1
          · exact hc o (Option.mem_toList.1 h1)
          · exact hq o h1
        have := huniq o this op ho h2; subst this
        exact .inr (.inl ⟨h1, by simpa using h3⟩)
      · rw [mark_uid] at h2
        have := huniq o' (hn o' h1) op ho h2; subst this
        rw [failsUnacked_mark] at h3
        exact .inr (.inr ⟨h1, h3⟩)
    · rintro (h1 | ⟨h1, h3⟩ | ⟨h1, h3⟩)
      · exact .inl (.inl ⟨op, h1, rfl⟩)
      · exact .inl (.inr ⟨op, ⟨h1, by simpa using h3⟩, rfl⟩)
      · exact .inr ⟨_, ⟨⟨op, h1, rfl⟩, by rw [failsUnacked_mark]; exact h3⟩, mark_uid op⟩
  rw [hmem]
  have hplain : op ∈ c.ops.writing → retained cfg.offline op.packet = false ∧ isQos1 op.packet = false := by
    intro h1
    have h2 := hi.live.plain op h1
    cases hp : op.packet <;> rw [hp] at h2 hu <;> simp_all [requiresAck, isUser, isQos1, retained]
    cases cfg.offline <;> simp_all [isPublish]
  have hheld : op ∈ c.ops.queued ∨ op ∈ c.ops.current.toList ∨ op ∈ c.ops.writing ∨ op ∈ c.ops.unacked := by
    simpa only [OpState.held, List.mem_append] using ho
  unfold failsUnacked
  rcases hheld with h1 | h1 | h1 | h1
  · have p0 := pos h1
    have n1 : op ∉ c.ops.writing := fun h => by have := pos h; omega
    have n2 : op ∉ c.ops.unacked := fun h => by have := pos h; omega
    simp [h1, n1, n2]
  · have p0 := pos h1
    have n1 : op ∉ c.ops.writing := fun h => by have := pos h; omega
    have n2 : op ∉ c.ops.unacked := fun h => by have := pos h; omega
    simp [h1, n1, n2]
  · obtain ⟨h2, h3⟩ := hplain h1
    simp [h1, h2, h3]
  · have p0 := pos h1
    have n1 : op ∉ c.ops.writing := fun h => by have := pos h; omega
    have n2 : op ∉ c.ops.queued := fun h => by have := pos h; omega
    have n3 : op ∉ c.ops.current.toList := fun h => by have := pos h; omega
    cases hq1 : isQos1 op.packet <;> simp [h1, n1, n2, n3]

/-- **C31, disconnect**: take any state the client can be in, in which the user wants it connected, and let the connection
(or the attempt at one) end with any error. An operation submitted and not completed before (nor dropped, see C27) is
completed by this, with the offline-queue-policy error, exactly if the configured behaviour does not keep its kind and
it is not a QoS 1 publish sent and waiting for its PUBACK. Nothing else is completed. -/
theorem C31_disconnect {cfg : Config} {c c' : Client} {e : Error} {ev : Event} (h : Reachable cfg c)
    (hd : c.ctl.desired = .connected) (he : Ends e ev) (hs : Client5.step cfg c ev = .ok c') {u : Nat} {p : Outgoing}
    (hsub : .submitted u p ∈ c.ops.log) (h0 : timesCompleted c u = 0) (hdr : ¬Dropped c u) :
    (Survives cfg.offline p ∨ isQos1 p = true ∧ u ∈ awaiting c.ops.log → timesCompleted c' u = 0) ∧
    (¬(Survives cfg.offline p ∨ isQos1 p = true ∧ u ∈ awaiting c.ops.log) →
      ∃ q, .completed u q .offlinePolicy none ∈ c'.ops.log) := by
  obtain ⟨op, ho, rfl, huser, hpl⟩ := pending_held h (pending_of hsub h0) hdr
  have hops := ends_step he hs hd
  have hl := lost_iff h ho huser
  rw [retained_congr hpl, isQos1_congr hpl, retained_iff] at hl
  have ht : timesCompleted c' op.uid = ((c.ops.lostOnDisconnection cfg).map (·.uid)).count op.uid := by
    unfold timesCompleted at h0 ⊢
    rw [hops, onDisconnection_log, ← List.append_assoc, List.countP_append, times_completions, h0]
    simp [isCompletion]
  constructor
  · intro hk
    rw [ht]
    exact List.count_eq_zero_of_not_mem fun hm => hl.1 hm hk
  · intro hk
    obtain ⟨o, ho', hu⟩ := List.mem_map.1 (hl.2 hk)
    refine ⟨o.packet, ?_⟩
    rw [hops, onDisconnection_log]
    refine List.mem_append_right _ (List.mem_append_left _ ?_)
    exact List.mem_map.2 ⟨o, ho', by rw [hu]⟩

/-- A disconnect completes operations only in this way. -/
theorem C31_only {cfg : Config} {c c' : Client} {e : Error} {ev : Event}
    (hd : c.ctl.desired = .connected) (he : Ends e ev) (hs : Client5.step cfg c ev = .ok c') :
    ∃ new, c'.ops.log = c.ops.log ++ new ∧
      ∀ x ∈ new, x = .disconnected ∨ ∃ u q, x = .completed u q .offlinePolicy none := by
  refine ⟨_, by rw [ends_step he hs hd, onDisconnection_log], fun x hx => ?_⟩
  rcases List.mem_append.1 hx with hx | hx
  · obtain ⟨o, _, rfl⟩ := List.mem_map.1 hx
    exact .inr ⟨_, _, rfl⟩
  · exact .inl (List.mem_singleton.1 hx)

/-- **C31, order**: the operations that remain stay in order, those in the queue (an operation being encoded is its
first) and those waiting for an acknowledgement. -/
theorem C31_order {cfg : Config} {c c' : Client} {e : Error} {ev : Event}
    (hd : c.ctl.desired = .connected) (he : Ends e ev) (hs : Client5.step cfg c ev = .ok c') :
    c'.ops.queued.Sublist (c.ops.current.toList ++ c.ops.queued) ∧
    (c'.ops.unacked.map (·.uid)).Sublist (c.ops.unacked.map (·.uid)) ∧ c'.ops.current = none ∧ c'.ops.writing = [] := by
  rw [ends_step he hs hd]
  refine ⟨by rw [onDisconnection_queued]; exact List.filter_sublist .., ?_, by simp, by simp⟩
  rw [onDisconnection_unacked]
  have : c.ops.unacked.map (·.uid) = (c.ops.unacked.map markDisconnected).map (·.uid) := by
    rw [List.map_map]; exact List.map_congr_left fun o _ => (mark_uid o).symm
  rw [this]
  exact (List.filter_sublist ..).map _

/-- **C31, submission while offline**: an operation submitted while the client is not connected is refused with the
offline-queue-policy error if the configured behaviour does not keep its kind, and queued at the end otherwise. -/
theorem C31_submit {cfg : Config} {c c' : Client} {p : Outgoing} {t : Nat} (hst : c.ctl.state ≠ .connected)
    (hs : Client5.step cfg c (.submit p t false) = .ok c') :
    (Survives cfg.offline p → ∃ op, c'.ops.queued = c.ops.queued ++ [op] ∧ op.uid = c.ops.nextUid ∧
      op.packet = withPacketId p 0 ∧ c'.ops.log = c.ops.log ++ [.submitted c.ops.nextUid (withPacketId p 0)]) ∧
    (¬Survives cfg.offline p → c'.ops.queued = c.ops.queued ∧ c'.ops.log = c.ops.log ++
      [.submitted c.ops.nextUid p, .completed c.ops.nextUid p .offlinePolicy none]) := by
  cases hs
  rw [← retained_iff]
  unfold Client.submit
  simp only [Bool.false_eq_true, if_false, hst, not_false_eq_true, true_and, ne_eq]
  constructor
  · intro hr
    simp only [hr, Bool.not_true, Bool.false_eq_true, if_false]
    refine ⟨_, rfl, ?_, ?_, rfl⟩
    · exact changeStats_uid ..
    · exact changeStats_packet ..
  · intro hr
    have : retained cfg.offline p = false := by simpa using hr
    simp only [this, Bool.not_false, if_true]
    exact ⟨rfl, rfl⟩

/-- While the client is connected every submission is queued. -/
theorem C31_submit_connected {cfg : Config} {c c' : Client} {p : Outgoing} {t : Nat} (hst : c.ctl.state = .connected)
    (hs : Client5.step cfg c (.submit p t false) = .ok c') :
    c'.ops.log = c.ops.log ++ [.submitted c.ops.nextUid (withPacketId p 0)] ∧
    ∃ op, c'.ops.queued = c.ops.queued ++ [op] ∧ op.uid = c.ops.nextUid := by
  cases hs
  unfold Client.submit
  simp only [Bool.false_eq_true, if_false, hst, not_true_eq_false, false_and, ne_eq]
  exact ⟨rfl, _, rfl, changeStats_uid ..⟩

/-- **C31, reconnect**: when a later connection succeeds, the operations completed by this are exactly those that wait for
an acknowledgement since an earlier connection, if the server has no session for the client and the configured behaviour
does not keep their kind. -/
theorem C31_reconnect {cfg : Config} {c c' : Client} {v : ConnackView} {a : Bool} {now : Nat} (h : Reachable cfg c)
    (hst : c.ctl.state = .mqttConnect) (hs : Client5.step cfg c (.packet (.connack v) a now) = .ok c')
    (hst' : c'.ctl.state = .connected) {u : Nat} {p : Outgoing}
    (hsub : .submitted u p ∈ c.ops.log) (h0 : timesCompleted c u = 0) (hdr : ¬Dropped c u) :
    (u ∈ awaiting c.ops.log ∧ v.sessionPresent = false ∧ ¬Survives cfg.offline p →
      ∃ q, .completed u q .offlinePolicy none ∈ c'.ops.log) ∧
    (¬(u ∈ awaiting c.ops.log ∧ v.sessionPresent = false ∧ ¬Survives cfg.offline p) → timesCompleted c' u = 0) := by
  have hops : ∃ s : Settings, s.rejoinedSession = v.sessionPresent ∧ c'.ops = c.ops.onConnection cfg s := by
    have hshut : ∀ (k : Control) e, k.state = .mqttConnect → (k.shutdownChannel e).state ≠ .connected := by
      intro k e hk
      unfold Control.shutdownChannel
      generalize (if e = .success then Error.other 0 else e) = e
      have : (k.emitFinal e).state = .mqttConnect := by unfold Control.emitFinal; split <;> exact hk
      dsimp only
      split
      · rw [this]; decide
      · split
        · rw [this]; decide
        · exact State.noConfusion
    have hfin : ∀ (k k' : Control) e, k.emitFinalConnack e = .ok k' → k.state = .mqttConnect →
        k'.state = .mqttConnect := by
      intro k k' e hk hm
      unfold Control.emitFinalConnack at hk
      split at hk
      · cases hk
      · cases hk; unfold Control.emitFinal; split <;> exact hm
    simp only [Client5.step, Client.onPacket, hst, Client.onConnack] at hs
    split at hs
    · split at hs
      · cases hs
      · rename_i k hk
        cases hs
        exact absurd hst' (hshut _ _ (hfin _ _ _ hk hst))
    · split at hs
      · split at hs
        · cases hs
        · rename_i k hk
          cases hs
          exact absurd hst' (hshut _ _ (hfin _ _ _ hk rfl))
      · cases hs
        exact ⟨_, rfl, rfl⟩
  obtain ⟨st, hrj, hops⟩ := hops
  obtain ⟨op, ho, rfl, huser, hpl⟩ := pending_held h (pending_of hsub h0) hdr
  obtain ⟨hi, hss⟩ := reachable_stat h
  have huniq := unique_of_map hss.ledger.uids
  have hn : ∀ o ∈ c.ops.unacked, o ∈ c.ops.held := fun o h => by simp [OpState.held, h]
  have haw : op.uid ∈ awaiting c.ops.log ↔ op ∈ c.ops.unacked := by
    unfold awaiting
    rw [hi.track.awaiting, List.mem_map]
    exact ⟨fun ⟨o, h1, h2⟩ => huniq o (hn o h1) op ho h2 ▸ h1, fun h1 => ⟨op, h1, rfl⟩⟩
  have hl : op.uid ∈ (lostOnConnection cfg st c.ops).map (·.uid) ↔
      op.uid ∈ awaiting c.ops.log ∧ v.sessionPresent = false ∧ ¬Survives cfg.offline p := by
    rw [← retained_iff, ← retained_congr hpl, haw, ← hrj]
    unfold lostOnConnection
    split
    · rename_i hr; simp [hr]
    · rename_i hr
      simp only [lose, List.mem_map, List.mem_filter]
      constructor
      · rintro ⟨o, ⟨h1, h2⟩, h3⟩
        have := huniq o (hn o h1) op ho h3; subst this
        exact ⟨h1, by simpa using hr, by simpa using h2⟩
      · rintro ⟨h1, _, h2⟩
        exact ⟨op, ⟨h1, by simpa using h2⟩, rfl⟩
  rw [← hl]
  constructor
  · intro hk
    obtain ⟨o, ho', hu⟩ := List.mem_map.1 hk
    refine ⟨o.packet, ?_⟩
    rw [hops, onConnection_log]
    refine List.mem_append_right _ (List.mem_append_left _ ?_)
    exact List.mem_map.2 ⟨o, ho', by rw [hu]⟩
  · intro hk
    unfold timesCompleted at h0 ⊢
    rw [hops, onConnection_log, ← List.append_assoc, List.countP_append, times_completions, h0,
      List.count_eq_zero_of_not_mem hk]
    simp [isCompletion]

/-- Six operations are submitted while connected, the first three are sent; then the connection is lost. -/
def mixedHistory : List Event :=
  connectWith {} ++ [.submit (publishTo [97] 1) 0 false, .submit (.subscribe { subscriptions := [{ topicFilter := [97] }] }) 0 false,
    .submit (publishTo [98] 0) 0 false, .service {},
    .submit (publishTo [99] 1) 0 false, .submit (.unsubscribe { topicFilters := [[97]] }) 0 false,
    .submit (publishTo [100] 0) 0 false, .shutdown .hangup]

/-- Which of the operations 1 to 6 are left. -/
def left (b : OfflineBehavior) : List Nat :=
  match run { offline := b } (Client.new { offline := b }) mixedHistory with
  | .ok c => (List.range 7).filter fun u => u ≠ 0 ∧ timesCompleted c u = 0
  | _ => [1000]

example : left .failQos0 = [1, 2, 4, 5] ∧ left .failNonQos1 = [1, 4] ∧ left .failAll = [1] := by
  decide +kernel

end Mqtt.Props
