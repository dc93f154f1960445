import Verif.Lemmas.Client5Manual
import Verif.Lemmas.Client5Origin

/-!
The order of QoS 1 publishes in the MQTT 5 client.
-/
namespace Mqtt.Client5

open Mqtt.V5

/-! ## QoS 1 publishes in lists of operations -/

/-- Numbers and packets of the QoS 1 publishes. -/
def qos1s (ops : List Op) : List (Nat × Outgoing) := (ops.map fun op => (op.uid, op.packet)).filter fun x => isQos1 x.2

@[simp] theorem qos1s_nil : qos1s [] = [] := rfl
@[simp] theorem qos1s_append (a b : List Op) : qos1s (a ++ b) = qos1s a ++ qos1s b := by simp [qos1s]
theorem qos1s_cons (op : Op) (ops : List Op) :
    qos1s (op :: ops) = (if isQos1 op.packet then [(op.uid, op.packet)] else []) ++ qos1s ops := by
  unfold qos1s
  rw [List.map_cons, List.filter_cons]
  split <;> rfl
theorem qos1s_sublist {a b : List Op} (h : a.Sublist b) : (qos1s a).Sublist (qos1s b) := (h.map _).filter _
@[simp] theorem qos1s_changeStatsAll (st : Stats) (a b : Bool) (ops : List Op) :
    qos1s (changeStatsAll st a b ops).2 = qos1s ops := by unfold qos1s; rw [changeStatsAll_packets]
theorem mem_qos1s {ops : List Op} {u : Nat} {p : Outgoing} :
    (u, p) ∈ qos1s ops ↔ isQos1 p = true ∧ ∃ op ∈ ops, op.uid = u ∧ op.packet = p := by
  simp only [qos1s, List.mem_filter, List.mem_map, Prod.mk.injEq]
  exact And.comm

/-- With DUP set. -/
def withDup : Outgoing → Outgoing
  | .publish v => .publish { v with duplicate := true }
  | p => p

/-- With DUP cleared. -/
def withoutDup : Outgoing → Outgoing
  | .publish v => .publish { v with duplicate := false }
  | p => p

/-- The DUP flag. -/
def isDup : Outgoing → Bool
  | .publish v => v.duplicate
  | _ => false

@[simp] theorem withoutDup_withDup (p : Outgoing) : withoutDup (withDup p) = withoutDup p := by cases p <;> rfl
@[simp] theorem isQos1_withDup (p : Outgoing) : isQos1 (withDup p) = isQos1 p := by cases p <;> rfl
theorem isDup_withDup {p : Outgoing} (h : isQos1 p = true) : isDup (withDup p) = true := by
  cases p <;> first | rfl | cases h
theorem isQos1_withoutDup (p : Outgoing) : isQos1 (withoutDup p) = isQos1 p := by cases p <;> rfl
theorem packetId_withoutDup (p : Outgoing) : packetId (withoutDup p) = packetId p := by cases p <;> rfl
theorem isQos1_withPacketId (p : Outgoing) (id : Nat) : isQos1 (withPacketId p id) = isQos1 p := by cases p <;> rfl

theorem mark_qos1 (op : Op) : isQos1 (markDisconnected op).packet = isQos1 op.packet ∧
    (isQos1 op.packet = true → (markDisconnected op).packet = withDup op.packet) := by
  unfold markDisconnected
  cases hp : op.packet with
  | publish v =>
    simp only
    split
    · exact ⟨rfl, fun _ => rfl⟩
    · rename_i h
      exact ⟨rfl, fun h' => absurd h' h⟩
  | _ => exact ⟨rfl, fun h => by cases h⟩

theorem qos1s_mark (ops : List Op) :
    qos1s (ops.map markDisconnected) = (qos1s ops).map fun x => (x.1, withDup x.2) := by
  induction ops with
  | nil => rfl
  | cons op ops ih =>
    rw [List.map_cons, qos1s_cons, qos1s_cons, ih, (mark_qos1 op).1, List.map_append]
    congr 1
    split
    · rename_i h
      simp [(mark_qos1 op).2 h]
    · rfl

theorem qos1s_filter_qos1 (ops : List Op) : qos1s (ops.filter fun op => isQos1 op.packet) = qos1s ops := by
  induction ops with
  | nil => rfl
  | cons op ops ih =>
    rw [List.filter_cons]
    split
    · rename_i h
      rw [qos1s_cons, qos1s_cons, ih]
    · rename_i h
      rw [ih, qos1s_cons, if_neg h, List.nil_append]

theorem qos1s_filter_other (ops : List Op) : qos1s (ops.filter fun op => !isQos1 op.packet) = [] := by
  induction ops with
  | nil => rfl
  | cons op ops ih =>
    rw [List.filter_cons]
    split
    · rename_i h
      rw [qos1s_cons, ih, if_neg (by simpa using h), List.nil_append]
    · exact ih

/-- A filter that keeps them all. -/
theorem qos1s_filter_keeps (f : Op → Bool) (ops : List Op) (h : ∀ op, isQos1 op.packet = true → f op = true) :
    qos1s (ops.filter f) = qos1s ops := by
  induction ops with
  | nil => rfl
  | cons op ops ih =>
    rw [List.filter_cons]
    split
    · rw [qos1s_cons, qos1s_cons, ih]
    · rename_i hf
      rw [ih, qos1s_cons, if_neg (fun hq => hf (h op hq)), List.nil_append]

/-- Sent, not acknowledged. -/
def OpState.sentOut (s : OpState) : List (Nat × Outgoing) := qos1s s.unacked
/-- To be sent. -/
def OpState.ahead (s : OpState) : List (Nat × Outgoing) := qos1s (s.current.toList ++ s.queued)

/-! ## What moves do -/

/-- Not about QoS 1 publishes. -/
def Effect.dull : Effect → Bool
  | .encoded _ p => !isQos1 p
  | .submitted _ _ => false
  | .connected _ => false
  | .disconnected => false
  | _ => true

theorem dull_phase {new : List Effect} (h : ∀ e ∈ new, e.dull = true) : ∀ e ∈ new, e.phase = false := by
  intro e he
  have := h e he
  cases e <;> first | rfl | cases this

/-- What a move does. -/
inductive Line (s s' : OpState) (new : List Effect) : Prop where
  | other : (∀ e ∈ new, e.dull = true) → s'.sentOut.Sublist s.sentOut → s'.ahead.Sublist s.ahead →
      s.nextUid ≤ s'.nextUid → Line s s' new
  | accepted (p : Outgoing) : new = [.submitted s.nextUid p] → s'.sentOut = s.sentOut →
      s'.ahead = s.ahead ++ (if isQos1 p then [(s.nextUid, p)] else []) → withPacketId p 0 = p →
      s'.nextUid = s.nextUid + 1 → Line s s' new
  | rejected (p : Outgoing) (e : Error) : new = [.submitted s.nextUid p, .completed s.nextUid p e none] →
      s'.sentOut = s.sentOut → s'.ahead = s.ahead → s'.nextUid = s.nextUid + 1 → Line s s' new
  | bound (u : Nat) (p : Outgoing) (id : Nat) (rest : List (Nat × Outgoing)) : (∀ e ∈ new, e.dull = true) →
      packetId p = 0 → s.ahead = (u, p) :: rest → s'.ahead = (u, withPacketId p id) :: rest → s'.sentOut = s.sentOut →
      s'.nextUid = s.nextUid → Line s s' new
  | sent (u : Nat) (p : Outgoing) : new = [.encoded u p] → isQos1 p = true → packetId p ≠ 0 →
      s.ahead = (u, p) :: s'.ahead → s'.sentOut = s.sentOut ++ [(u, p)] → s'.nextUid = s.nextUid → live s.log = true →
      (∃ op, s.current = some op ∧ op.uid = u ∧ op.packet = p) → Line s s' new
  | lost (done : List Effect) : new = done ++ [.disconnected] → (∀ e ∈ done, e.dull = true) →
      s'.ahead.Sublist s.ahead → s'.sentOut = s.sentOut.map (fun x => (x.1, withDup x.2)) → s'.nextUid = s.nextUid →
      Line s s' new
  | joined (done : List Effect) (settings : Settings) : new = done ++ [.connected settings] →
      (∀ e ∈ done, e.dull = true) → s'.ahead.Sublist (s.sentOut ++ s.ahead) → s'.sentOut = [] →
      s'.nextUid = s.nextUid → live s.log = false → Line s s' new

theorem completions_dull (ops : List Op) (e : Error) : ∀ x ∈ completions ops e, x.dull = true := by
  intro x hx
  simp only [completions, List.mem_map] at hx
  obtain ⟨_, _, rfl⟩ := hx
  rfl

theorem qos1s_queuePuback (s : OpState) (id : Nat) : (s.queuePuback id).ahead = s.ahead := by
  obtain ⟨a, b, h1, h2, _⟩ := insertPuback_split (s.newOp (.puback { packetId := id })) s.queued
  simp only [OpState.ahead, OpState.queuePuback, qos1s_append]
  rw [h2, h1, qos1s_append, qos1s_append, qos1s_cons]
  rfl

theorem move_line {cfg : Config} {c c' : Client} (hv : LiveInv c) (m : Move cfg c c') :
    ∃ new, c'.ops.log = c.ops.log ++ new ∧ Line c.ops c'.ops new := by
  have nil : ∀ e ∈ ([] : List Effect), e.dull = true := by simp
  have same : ∀ {s : OpState}, s.log = c.ops.log → s.unacked = c.ops.unacked → s.current = c.ops.current →
      s.queued = c.ops.queued → s.nextUid = c.ops.nextUid → ∃ new, s.log = c.ops.log ++ new ∧ Line c.ops s new := by
    intro s h1 h2 h3 h4 h5
    refine ⟨[], by simp [h1], .other nil ?_ ?_ (by omega)⟩
    · rw [OpState.sentOut, h2]; exact List.Sublist.refl _
    · rw [OpState.ahead, h3, h4]; exact List.Sublist.refl _
  cases m with
  | control k hk => exact same rfl rfl rfl rfl rfl
  | accept p t hp hs hst =>
    have hx := (submittable_id hs).2
    refine ⟨_, rfl, .accepted p ?_ rfl ?_ hx rfl⟩
    · simp [OpState.newOp, hx]
    · simp only [OpState.ahead, OpState.accept, ← List.append_assoc]
      rw [qos1s_append (c.ops.current.toList ++ c.ops.queued), qos1s_cons]
      simp [OpState.newOp, hx]
  | reject p e hp => exact ⟨_, rfl, .rejected p e rfl rfl rfl rfl⟩
  | push p hp hst =>
    refine ⟨[], by simp [OpState.pushFront], .other nil (List.Sublist.refl _) ?_ (by simp [OpState.pushFront])⟩
    simp only [OpState.ahead, OpState.pushFront, qos1s_append, qos1s_cons]
    have : isQos1 (c.ops.newOp p).packet = false := by
      simp only [OpState.newOp]
      rcases hp with rfl | hp | hp
      · rfl
      · cases p <;> simp [isConnect] at hp; rfl
      · cases p <;> simp [isDisconnect] at hp; rfl
    rw [this]
    exact List.Sublist.refl _
  | publish v a hst =>
    obtain ⟨s1, ctl, hs, hl, hx⟩ := onPublish_queue c.ops v a
    have h1 : s1.sentOut = c.ops.sentOut := by simp [OpState.sentOut, hs.unacked]
    have h2 : s1.ahead = c.ops.ahead := by simp [OpState.ahead, hs.current, hs.queued]
    rcases hx with hx | hx
    · rw [hx]
      exact ⟨_, hl, .other (by simp [Effect.dull]) (h1 ▸ List.Sublist.refl _) (h2 ▸ List.Sublist.refl _)
        (by rw [hs.nextUid]; exact Nat.le_refl _)⟩
    · rw [hx]
      refine ⟨[.delivered v ctl, .pubackQueued s1.nextUid v.packetId], by simp [OpState.queuePuback, hl],
        .other (by simp [Effect.dull]) ?_ ?_ (by simp [OpState.queuePuback, hs.nextUid])⟩
      · exact h1 ▸ List.Sublist.refl _
      · rw [qos1s_queuePuback, h2]; exact List.Sublist.refl _
  | invoke ctl hst =>
    rcases invoke_queue c.ops ctl with ⟨id, s1, _, hs, hl, _, _, _, hx⟩ | ⟨_, hs, hl, _⟩
    · dsimp only
      rw [hx]
      refine ⟨[.invoked ctl (some id), .pubackQueued s1.nextUid id], by simp [OpState.queuePuback, hl],
        .other (by simp [Effect.dull]) ?_ ?_ (by simp [OpState.queuePuback, hs.nextUid])⟩
      · have : (s1.queuePuback id).sentOut = c.ops.sentOut := by simp [OpState.sentOut, OpState.queuePuback, hs.unacked]
        rw [this]; exact List.Sublist.refl _
      · rw [qos1s_queuePuback]
        have h2 : s1.ahead = c.ops.ahead := by simp [OpState.ahead, hs.current, hs.queued]
        rw [h2]; exact List.Sublist.refl _
    · refine ⟨_, hl, .other (by simp [Effect.dull]) ?_ ?_ (by dsimp only; rw [hs.nextUid]; exact Nat.le_refl _)⟩
      · simp only [OpState.sentOut, hs.unacked]; exact List.Sublist.refl _
      · simp only [OpState.ahead, hs.current, hs.queued]; exact List.Sublist.refl _
  | token id hst =>
    exact ⟨[_], rfl, .other (by simp [Effect.dull]) (List.Sublist.refl _) (List.Sublist.refl _) (Nat.le_refl _)⟩
  | invalid op rest e hq he =>
    refine ⟨[_], rfl, .other (by simp [Effect.dull]) (List.Sublist.refl _) ?_ (Nat.le_refl _)⟩
    simp only [OpState.ahead, OpState.complete, hq]
    exact qos1s_sublist (List.Sublist.append (List.Sublist.refl _) (List.sublist_cons_self ..))
  | start op rest s ok hq hc he hst hs =>
    rcases setCurrent_cases hs with ⟨_, p, n, enc, rfl, _⟩ | ⟨_, op', n, enc, rfl, hb, _⟩
    · refine ⟨[_], rfl, .other (by simp [Effect.dull]) (List.Sublist.refl _) ?_ (Nat.le_refl _)⟩
      simp only [OpState.ahead, hq, hc]
      exact qos1s_sublist (List.sublist_cons_self ..)
    · rcases bind_cases hb with ⟨_, _, rfl⟩ | ⟨hn, id, _, _, rfl⟩
      · refine ⟨[_], rfl, .other (by simp [Effect.dull]) (List.Sublist.refl _) ?_ (Nat.le_refl _)⟩
        simp only [OpState.ahead, hq, hc]
        exact List.Sublist.refl _
      · have h0 : packetId op.packet = 0 := by simpa [needsId] using (show _ ∧ _ by simpa [needsId] using hn).2
        cases hqos : isQos1 op.packet with
        | false =>
          refine ⟨[_], rfl, .other (by simp [Effect.dull]) (List.Sublist.refl _) ?_ (Nat.le_refl _)⟩
          simp only [OpState.ahead, hq, hc, Option.toList_some, Option.toList_none, List.nil_append, List.cons_append,
            qos1s_cons, isQos1_withPacketId, hqos]
          exact List.Sublist.refl _
        | true =>
          refine ⟨[_], rfl, .bound op.uid op.packet id (qos1s rest) (by simp [Effect.dull]) h0 ?_ ?_ rfl rfl⟩
          · simp [OpState.ahead, hq, hc, qos1s_cons, hqos]
          · simp [OpState.ahead, qos1s_cons, hqos]
  | encode op buf buf' enc r hc he => exact same rfl rfl rfl rfl rfl
  | finish op now s hc hsteps hs =>
    have hlive : isQos1 op.packet = true → live c.ops.log = true := by
      intro hq
      cases hl : live c.ops.log with
      | true => rfl
      | false =>
        have := hv.cur hl op hc
        cases hp : op.packet <;> rw [hp] at hq this <;> first | cases hq | cases this
    obtain ⟨_, ⟨hr, hid, rfl⟩ | ⟨hr, rfl⟩⟩ := finish_cases hs
    · cases hqos : isQos1 op.packet with
      | false =>
        refine ⟨[_], rfl, .other (by simp [Effect.dull, hqos]) ?_ ?_ (Nat.le_refl _)⟩
        · simp only [OpState.sentOut, OpState.finishAck, qos1s_append, qos1s_cons, changeStats_packet, hqos]
          simp
        · simp only [OpState.ahead, OpState.finishAck, hc]
          exact qos1s_sublist (List.sublist_cons_self ..)
      | true =>
        refine ⟨[_], rfl, .sent op.uid op.packet rfl hqos hid ?_ ?_ rfl (hlive hqos) ⟨op, hc, rfl, rfl⟩⟩
        · simp [OpState.ahead, OpState.finishAck, hc, qos1s_cons, hqos]
        · simp only [OpState.sentOut, OpState.finishAck, qos1s_append, qos1s_cons, changeStats_packet, hqos]
          simp
    · have hqos : isQos1 op.packet = false := by
        cases hp : op.packet <;> rw [hp] at hr <;> first | rfl | exact hr
      refine ⟨[_], rfl, .other (by simp [Effect.dull, hqos]) (List.Sublist.refl _) ?_ (Nat.le_refl _)⟩
      simp only [OpState.ahead, OpState.finishWrite, hc]
      exact qos1s_sublist (List.sublist_cons_self ..)
  | write data =>
    exact ⟨[_], rfl, .other (by simp [Effect.dull]) (List.Sublist.refl _) (List.Sublist.refl _) (Nat.le_refl _)⟩
  | pinged uid =>
    exact ⟨[_], rfl, .other (by simp [Effect.dull]) (List.Sublist.refl _) (List.Sublist.refl _) (Nat.le_refl _)⟩
  | unwrite => exact same rfl rfl rfl rfl rfl
  | written e =>
    rw [completeAll_eq]
    exact ⟨_, rfl, .other (completions_dull _ _) (List.Sublist.refl _) (List.Sublist.refl _) (Nat.le_refl _)⟩
  | ack id uid op rest e a ht hu =>
    obtain ⟨x, y, h1, h2, _⟩ := takeUid_split hu
    refine ⟨[_], rfl, .other (by simp [Effect.dull]) ?_ (List.Sublist.refl _) (Nat.le_refl _)⟩
    simp only [OpState.sentOut, OpState.complete, h1, h2]
    exact qos1s_sublist (List.Sublist.append (List.Sublist.refl _) (List.sublist_cons_self ..))
  | timeout op rest hu ht =>
    obtain ⟨x, y, h1, h2, _⟩ := takeUid_split hu
    refine ⟨[_], rfl, .other (by simp [Effect.dull]) ?_ (List.Sublist.refl _) (Nat.le_refl _)⟩
    simp only [OpState.sentOut, OpState.complete, h1, h2]
    exact qos1s_sublist (List.Sublist.append (List.Sublist.refl _) (List.sublist_cons_self ..))
  | forget uid => exact same rfl rfl rfl rfl rfl
  | fresh hq => exact same rfl rfl rfl rfl rfl
  | disconnection e st hst =>
    refine ⟨_, onDisconnection_log cfg c.ops, .lost _ rfl (completions_dull _ _) ?_ ?_ (by simp)⟩
    · simp only [OpState.ahead, onDisconnection_current, onDisconnection_queued, keep, Option.toList_none,
        List.nil_append]
      exact qos1s_sublist List.filter_sublist
    · simp only [OpState.sentOut, onDisconnection_unacked, keepUnacked]
      rw [qos1s_filter_keeps, qos1s_mark]
      intro op hq
      simp [failsUnacked, hq]
  | connection settings now hst =>
    have hl := hv.down (.inr hst)
    simp only [Client.toConnected]
    refine ⟨_, onConnection_log cfg settings c.ops, .joined _ settings rfl (completions_dull _ _) ?_ ?_ (by simp) hl⟩
    · have hcur : qos1s c.ops.current.toList = [] := by
        cases hc : c.ops.current with
        | none => rfl
        | some op =>
          have := hv.cur hl op hc
          have hq : isQos1 op.packet = false := by cases hp : op.packet <;> rw [hp] at this <;> first | rfl | cases this
          simp [qos1s_cons, hq]
      simp only [OpState.ahead, OpState.sentOut, onConnection_current, onConnection_queued, qos1s_append, hcur,
        List.nil_append, qos1s_changeStatsAll]
      unfold requeued
      split
      · simp only [qos1s_append, qos1s_filter_qos1, qos1s_filter_other, List.nil_append]
        exact List.Sublist.refl _
      · rw [qos1s_append]
        exact List.Sublist.append (qos1s_sublist List.filter_sublist) (List.Sublist.refl _)
    · simp [OpState.sentOut]
  | reset hst =>
    simp only [Client.toStopped]
    refine ⟨_, resetAll_log c.ops .userStop, .other (completions_dull _ _) ?_ ?_ (by simp)⟩
    · simp [OpState.sentOut]
    · simp only [OpState.ahead, resetAll_current, resetAll_queued, List.append_nil]
      exact qos1s_sublist (List.sublist_append_left ..)
  | terminate hst hd =>
    simp only [Client.toTerminated]
    refine ⟨_, resetAll_log c.ops .terminated, .other (completions_dull _ _) ?_ ?_ (by simp)⟩
    · simp [OpState.sentOut]
    · simp only [OpState.ahead, resetAll_current, resetAll_queued, List.append_nil]
      exact qos1s_sublist (List.sublist_append_left ..)

/-! ## The invariant -/

/-- It happened since the last disconnect. -/
def Lately (log : List Effect) (x : Effect) : Prop := ∃ a b, log = a ++ x :: b ∧ .disconnected ∉ b

theorem Lately.mem {log : List Effect} {x : Effect} (h : Lately log x) : x ∈ log := by
  obtain ⟨a, b, rfl, _⟩ := h; simp

theorem Lately.of_append {log new : List Effect} {x : Effect} (h : Lately (log ++ new) x) : Lately log x ∨ x ∈ new := by
  obtain ⟨a, b, hx, hb⟩ := h
  rcases List.append_eq_append_iff.1 hx with ⟨m, h1, h2⟩ | ⟨m, h1, h2⟩
  · exact .inr (by rw [h2]; simp)
  · cases m with
    | nil => exact .inr (by simp only [List.nil_append] at h2; rw [← h2]; simp)
    | cons y m =>
      simp only [List.cons_append, List.cons.injEq] at h2
      obtain ⟨rfl, rfl⟩ := h2
      exact .inl ⟨a, m, h1, fun hm => hb (List.mem_append_left _ hm)⟩

theorem Lately.append {log new : List Effect} {x : Effect} (h : Lately log x) (hn : .disconnected ∉ new) :
    Lately (log ++ new) x := by
  obtain ⟨a, b, rfl, hb⟩ := h
  exact ⟨a, b ++ new, by simp, by simp [hb, hn]⟩

theorem Lately.last (log : List Effect) (x : Effect) : Lately (log ++ [x]) x := ⟨log, [], rfl, by simp⟩

/-- Nothing has happened since a disconnect. -/
theorem Lately.after {log : List Effect} {x : Effect} (h : Lately (log ++ [.disconnected]) x) : x = .disconnected := by
  obtain ⟨a, b, hx, hb⟩ := h
  rcases List.eq_nil_or_concat b with rfl | ⟨b', y, hb'⟩
  · have := (List.append_inj' hx rfl).2
    simp at this
    exact this.symm
  · rw [List.concat_eq_append] at hb'
    subst hb'
    rw [show a ++ x :: (b' ++ [y]) = (a ++ x :: b') ++ [y] by simp] at hx
    have := (List.append_inj' hx rfl).2
    simp at this
    exact absurd (by simp [this]) hb

structure LineInv (s : OpState) : Prop where
  sorted : ((s.sentOut ++ s.ahead).map (·.1)).Pairwise (· < ·)
  below : ∀ x ∈ s.sentOut ++ s.ahead, x.1 < s.nextUid
  encodedBelow : ∀ u q, .encoded u q ∈ s.log → isQos1 q = true → u < s.nextUid
  submittedBelow : ∀ u q, .submitted u q ∈ s.log → u < s.nextUid
  silent : live s.log = false → ∀ w q, Lately s.log (.encoded w q) → isQos1 q = true → False
  recent : ∀ x ∈ s.ahead, ∀ w q, Lately s.log (.encoded w q) → isQos1 q = true → w < x.1
  first : ∀ x ∈ s.ahead, (∃ q, .encoded x.1 q ∈ s.log ∧ isQos1 q = true) ∨
    ∀ w q, .encoded w q ∈ s.log → isQos1 q = true → w < x.1
  content : ∀ x ∈ s.sentOut ++ s.ahead, ∀ q, .encoded x.1 q ∈ s.log → isQos1 q = true →
    withoutDup x.2 = withoutDup q ∧ packetId q ≠ 0
  dup : ∀ x, x ∈ s.ahead ∨ x ∈ s.sentOut ∧ live s.log = false → ∀ q, .encoded x.1 q ∈ s.log → isQos1 q = true →
    isDup x.2 = true
  orig : ∀ x ∈ s.ahead, (∀ q, .encoded x.1 q ∈ s.log → isQos1 q = false) → ∀ q, .submitted x.1 q ∈ s.log →
    withPacketId x.2 0 = q
  here : live s.log = true → ∀ x ∈ s.sentOut, ∃ q, Lately s.log (.encoded x.1 q) ∧ isQos1 q = true
  logged : ∀ x ∈ s.sentOut, ∃ q, .encoded x.1 q ∈ s.log ∧ isQos1 q = true

theorem line_new (cfg : Config) : LineInv (Client.new cfg).ops := by
  have no : ∀ x, ¬Lately [] x := fun x h => by cases h.mem
  refine ⟨?_, ?_, ?_, ?_, fun _ w q h _ => no _ h, ?_, ?_, ?_, ?_, ?_, ?_, ?_⟩ <;>
    simp [Client.new, OpState.sentOut, OpState.ahead]

/-- No QoS 1 publish is sent. -/
theorem dull_encoded {new : List Effect} (h : ∀ e ∈ new, e.dull = true) {w : Nat} {q : Outgoing}
    (hm : .encoded w q ∈ new) : isQos1 q = false := by
  have := h _ hm
  simpa [Effect.dull] using this

theorem LineInv.other {s s' : OpState} {new : List Effect} (h : LineInv s) (hl : s'.log = s.log ++ new)
    (hn : ∀ e ∈ new, e.dull = true) (h1 : s'.sentOut.Sublist s.sentOut) (h2 : s'.ahead.Sublist s.ahead)
    (h3 : s.nextUid ≤ s'.nextUid) : LineInv s' := by
  have hlive : live s'.log = live s.log := by rw [hl, live_append (dull_phase hn)]
  have henc : ∀ {w q}, .encoded w q ∈ s'.log → isQos1 q = true → .encoded w q ∈ s.log := by
    intro w q hm hq
    rw [hl] at hm
    rcases List.mem_append.1 hm with hm | hm
    · exact hm
    · rw [dull_encoded hn hm] at hq; cases hq
  have hlat : ∀ {w q}, Lately s'.log (.encoded w q) → isQos1 q = true → Lately s.log (.encoded w q) := by
    intro w q hm hq
    rw [hl] at hm
    rcases hm.of_append with hm | hm
    · exact hm
    · rw [dull_encoded hn hm] at hq; cases hq
  have hsub : ∀ {u q}, .submitted u q ∈ s'.log → .submitted u q ∈ s.log := by
    intro u q hm
    rw [hl] at hm
    rcases List.mem_append.1 hm with hm | hm
    · exact hm
    · have := hn _ hm; cases this
  have hdis : Effect.disconnected ∉ new := fun hm => by have := hn _ hm; cases this
  have hback : ∀ {u q}, Effect.encoded u q ∈ s.log → Effect.encoded u q ∈ s'.log := by
    intro u q hm; rw [hl]; exact List.mem_append_left _ hm
  have hall : (s'.sentOut ++ s'.ahead).Sublist (s.sentOut ++ s.ahead) := h1.append h2
  refine ⟨h.sorted.sublist (hall.map _), fun x hx => ?_, fun u q hm hq => ?_, fun u q hm => ?_, ?_, ?_, ?_, ?_, ?_, ?_, ?_, ?_⟩
  · have := h.below x (hall.mem hx); omega
  · have := h.encodedBelow u q (henc hm hq) hq; omega
  · have := h.submittedBelow u q (hsub hm); omega
  · intro hd w q hm hq
    exact h.silent (hlive ▸ hd) w q (hlat hm hq) hq
  · intro x hx w q hm hq
    exact h.recent x (h2.mem hx) w q (hlat hm hq) hq
  · intro x hx
    rcases h.first x (h2.mem hx) with ⟨q, h4, h5⟩ | h4
    · exact .inl ⟨q, hback h4, h5⟩
    · exact .inr fun w q hm hq => h4 w q (henc hm hq) hq
  · intro x hx q hm hq
    exact h.content x (hall.mem hx) q (henc hm hq) hq
  · intro x hx q hm hq
    refine h.dup x ?_ q (henc hm hq) hq
    rcases hx with hx | ⟨hx, hd⟩
    · exact .inl (h2.mem hx)
    · exact .inr ⟨h1.mem hx, hlive ▸ hd⟩
  · intro x hx hno q hm
    refine h.orig x (h2.mem hx) (fun q hm => ?_) q (hsub hm)
    exact hno q (hback hm)
  · intro hu x hx
    obtain ⟨q, h4, h5⟩ := h.here (hlive ▸ hu) x (h1.mem hx)
    refine ⟨q, ?_, h5⟩
    rw [hl]
    exact h4.append hdis
  · intro x hx
    obtain ⟨q, h4, h5⟩ := h.logged x (h1.mem hx)
    exact ⟨q, hback h4, h5⟩

theorem LineInv.submitted {s s' : OpState} {p : Outgoing} {new : List Effect} (h : LineInv s)
    (hl : s'.log = s.log ++ .submitted s.nextUid p :: new) (hn : ∀ e ∈ new, e.dull = true) (h1 : s'.sentOut = s.sentOut)
    (h2 : s'.ahead = s.ahead ∨ s'.ahead = s.ahead ++ [(s.nextUid, p)] ∧ withPacketId p 0 = p)
    (h3 : s'.nextUid = s.nextUid + 1) : LineInv s' := by
  have hph : ∀ e ∈ Effect.submitted s.nextUid p :: new, e.phase = false := by
    intro e he
    rcases List.mem_cons.1 he with rfl | he
    · rfl
    · exact dull_phase hn e he
  have hlive : live s'.log = live s.log := by rw [hl, live_append hph]
  have hnot : ∀ {w q}, .encoded w q ∈ Effect.submitted s.nextUid p :: new → isQos1 q = false := by
    intro w q hm
    rcases List.mem_cons.1 hm with hm | hm
    · cases hm
    · exact dull_encoded hn hm
  have henc : ∀ {w q}, .encoded w q ∈ s'.log → isQos1 q = true → .encoded w q ∈ s.log := by
    intro w q hm hq
    rw [hl] at hm
    rcases List.mem_append.1 hm with hm | hm
    · exact hm
    · rw [hnot hm] at hq; cases hq
  have hlat : ∀ {w q}, Lately s'.log (.encoded w q) → isQos1 q = true → Lately s.log (.encoded w q) := by
    intro w q hm hq
    rw [hl] at hm
    rcases hm.of_append with hm | hm
    · exact hm
    · rw [hnot hm] at hq; cases hq
  have hsub : ∀ {u q}, .submitted u q ∈ s'.log → .submitted u q ∈ s.log ∨ u = s.nextUid ∧ q = p := by
    intro u q hm
    rw [hl] at hm
    rcases List.mem_append.1 hm with hm | hm
    · exact .inl hm
    · rcases List.mem_cons.1 hm with hm | hm
      · cases hm; exact .inr ⟨rfl, rfl⟩
      · have := hn _ hm; cases this
  have hdis : Effect.disconnected ∉ Effect.submitted s.nextUid p :: new := fun hm => by
    have := hph _ hm; cases this
  have hback : ∀ {u q}, Effect.encoded u q ∈ s.log → Effect.encoded u q ∈ s'.log := by
    intro u q hm; rw [hl]; exact List.mem_append_left _ hm
  have hahead : ∀ {x}, x ∈ s'.ahead → x ∈ s.ahead ∨ x = (s.nextUid, p) ∧ withPacketId p 0 = p := by
    intro x hx
    rcases h2 with h2 | ⟨h2, h4⟩
    · exact .inl (h2 ▸ hx)
    · rw [h2] at hx
      rcases List.mem_append.1 hx with hx | hx
      · exact .inl hx
      · exact .inr ⟨by simpa using hx, h4⟩
  have hnew : ∀ {q}, Effect.encoded s.nextUid q ∈ s'.log → isQos1 q = true → False := by
    intro q hm hq
    have := h.encodedBelow _ _ (henc hm hq) hq
    omega
  refine ⟨?_, fun x hx => ?_, fun u q hm hq => ?_, fun u q hm => ?_, ?_, ?_, ?_, ?_, ?_, ?_, ?_, ?_⟩
  · rcases h2 with h2 | ⟨h2, _⟩
    · rw [h1, h2]; exact h.sorted
    · rw [h1, h2, ← List.append_assoc, List.map_append, List.pairwise_append]
      refine ⟨h.sorted, by simp, fun a ha b hb => ?_⟩
      obtain ⟨x, hx, rfl⟩ := List.mem_map.1 ha
      simp at hb
      have := h.below x hx
      omega
  · rw [h1] at hx
    rcases List.mem_append.1 hx with hx | hx
    · have := h.below x (List.mem_append_left _ hx); omega
    · rcases hahead hx with hx | ⟨rfl, _⟩
      · have := h.below x (List.mem_append_right _ hx); omega
      · simp [h3]
  · have := h.encodedBelow u q (henc hm hq) hq; omega
  · rcases hsub hm with hm | ⟨rfl, _⟩
    · have := h.submittedBelow u q hm; omega
    · omega
  · intro hd w q hm hq
    exact h.silent (hlive ▸ hd) w q (hlat hm hq) hq
  · intro x hx w q hm hq
    rcases hahead hx with hx | ⟨rfl, _⟩
    · exact h.recent x hx w q (hlat hm hq) hq
    · exact h.encodedBelow _ _ (hlat hm hq).mem hq
  · intro x hx
    rcases hahead hx with hx | ⟨rfl, _⟩
    · rcases h.first x hx with ⟨q, h4, h5⟩ | h4
      · exact .inl ⟨q, hback h4, h5⟩
      · exact .inr fun w q hm hq => h4 w q (henc hm hq) hq
    · exact .inr fun w q hm hq => h.encodedBelow _ _ (henc hm hq) hq
  · intro x hx q hm hq
    rw [h1] at hx
    rcases List.mem_append.1 hx with hx | hx
    · exact h.content x (List.mem_append_left _ hx) q (henc hm hq) hq
    · rcases hahead hx with hx | ⟨rfl, _⟩
      · exact h.content x (List.mem_append_right _ hx) q (henc hm hq) hq
      · exact (hnew hm hq).elim
  · intro x hx q hm hq
    rcases hx with hx | ⟨hx, hd⟩
    · rcases hahead hx with hx | ⟨rfl, _⟩
      · exact h.dup x (.inl hx) q (henc hm hq) hq
      · exact (hnew hm hq).elim
    · exact h.dup x (.inr ⟨h1 ▸ hx, hlive ▸ hd⟩) q (henc hm hq) hq
  · intro x hx hno q hm
    rcases hahead hx with hx | ⟨rfl, h4⟩
    · rcases hsub hm with hm | ⟨hu, _⟩
      · exact h.orig x hx (fun q hm => hno q (hback hm)) q hm
      · have := h.below x (List.mem_append_right _ hx)
        omega
    · rcases hsub hm with hm | ⟨_, rfl⟩
      · have := h.submittedBelow _ _ hm
        simp at this
      · exact h4
  · intro hu x hx
    obtain ⟨q, h4, h5⟩ := h.here (hlive ▸ hu) x (h1 ▸ hx)
    refine ⟨q, ?_, h5⟩
    rw [hl]
    exact h4.append hdis
  · intro x hx
    obtain ⟨q, h4, h5⟩ := h.logged x (h1 ▸ hx)
    exact ⟨q, hback h4, h5⟩

theorem LineInv.bound {s s' : OpState} {u id : Nat} {p : Outgoing} {rest : List (Nat × Outgoing)} {new : List Effect}
    (h : LineInv s) (hl : s'.log = s.log ++ new) (hn : ∀ e ∈ new, e.dull = true) (hp : packetId p = 0)
    (h1 : s.ahead = (u, p) :: rest) (h2 : s'.ahead = (u, withPacketId p id) :: rest) (h3 : s'.sentOut = s.sentOut)
    (h4 : s'.nextUid = s.nextUid) : LineInv s' := by
  -- first forget the entry, then put it back
  have hlive : live s'.log = live s.log := by rw [hl, live_append (dull_phase hn)]
  have henc : ∀ {w q}, .encoded w q ∈ s'.log → isQos1 q = true → .encoded w q ∈ s.log := by
    intro w q hm hq
    rw [hl] at hm
    rcases List.mem_append.1 hm with hm | hm
    · exact hm
    · rw [dull_encoded hn hm] at hq; cases hq
  have hlat : ∀ {w q}, Lately s'.log (.encoded w q) → isQos1 q = true → Lately s.log (.encoded w q) := by
    intro w q hm hq
    rw [hl] at hm
    rcases hm.of_append with hm | hm
    · exact hm
    · rw [dull_encoded hn hm] at hq; cases hq
  have hsub : ∀ {u q}, .submitted u q ∈ s'.log → .submitted u q ∈ s.log := by
    intro u q hm
    rw [hl] at hm
    rcases List.mem_append.1 hm with hm | hm
    · exact hm
    · have := hn _ hm; cases this
  have hdis : Effect.disconnected ∉ new := fun hm => by have := hn _ hm; cases this
  have hback : ∀ {u q}, Effect.encoded u q ∈ s.log → Effect.encoded u q ∈ s'.log := by
    intro u q hm; rw [hl]; exact List.mem_append_left _ hm
  have hmem : (u, p) ∈ s.ahead := by rw [h1]; simp
  have hnew : ∀ {q}, Effect.encoded u q ∈ s'.log → isQos1 q = true → False := by
    intro q hm hq
    obtain ⟨h5, h6⟩ := h.content (u, p) (List.mem_append_right _ hmem) q (henc hm hq) hq
    have := congrArg packetId h5
    simp only [packetId_withoutDup] at this
    omega
  have hahead : ∀ {x}, x ∈ s'.ahead → x ∈ s.ahead ∨ x = (u, withPacketId p id) := by
    intro x hx
    rw [h2] at hx
    rcases List.mem_cons.1 hx with hx | hx
    · exact .inr hx
    · exact .inl (by rw [h1]; exact List.mem_cons_of_mem _ hx)
  refine ⟨?_, fun x hx => ?_, fun u q hm hq => ?_, fun u q hm => ?_, ?_, ?_, ?_, ?_, ?_, ?_, ?_, ?_⟩
  · have := h.sorted
    rw [h1] at this
    rw [h3, h2]
    simpa using this
  · rw [h3] at hx
    rw [h4]
    rcases List.mem_append.1 hx with hx | hx
    · exact h.below x (List.mem_append_left _ hx)
    · rcases hahead hx with hx | rfl
      · exact h.below x (List.mem_append_right _ hx)
      · exact h.below (u, p) (List.mem_append_right _ hmem)
  · have := h.encodedBelow u q (henc hm hq) hq; omega
  · have := h.submittedBelow u q (hsub hm); omega
  · intro hd w q hm hq
    exact h.silent (hlive ▸ hd) w q (hlat hm hq) hq
  · intro x hx w q hm hq
    rcases hahead hx with hx | rfl
    · exact h.recent x hx w q (hlat hm hq) hq
    · exact h.recent (u, p) hmem w q (hlat hm hq) hq
  · intro x hx
    have key : ∀ v, ((∃ q, .encoded v q ∈ s.log ∧ isQos1 q = true) ∨
        ∀ w q, .encoded w q ∈ s.log → isQos1 q = true → w < v) →
        ((∃ q, .encoded v q ∈ s'.log ∧ isQos1 q = true) ∨
        ∀ w q, .encoded w q ∈ s'.log → isQos1 q = true → w < v) := by
      rintro v (⟨q, h4, h5⟩ | h4)
      · exact .inl ⟨q, hback h4, h5⟩
      · exact .inr fun w q hm hq => h4 w q (henc hm hq) hq
    rcases hahead hx with hx | rfl
    · exact key _ (h.first x hx)
    · exact key _ (h.first (u, p) hmem)
  · intro x hx q hm hq
    rw [h3] at hx
    rcases List.mem_append.1 hx with hx | hx
    · exact h.content x (List.mem_append_left _ hx) q (henc hm hq) hq
    · rcases hahead hx with hx | rfl
      · exact h.content x (List.mem_append_right _ hx) q (henc hm hq) hq
      · exact (hnew hm hq).elim
  · intro x hx q hm hq
    rcases hx with hx | ⟨hx, hd⟩
    · rcases hahead hx with hx | rfl
      · exact h.dup x (.inl hx) q (henc hm hq) hq
      · exact (hnew hm hq).elim
    · exact h.dup x (.inr ⟨h3 ▸ hx, hlive ▸ hd⟩) q (henc hm hq) hq
  · intro x hx hno q hm
    rcases hahead hx with hx | rfl
    · exact h.orig x hx (fun q hm => hno q (hback hm)) q (hsub hm)
    · rw [← h.orig (u, p) hmem (fun q hm => hno q (hback hm)) q (hsub hm)]
      cases p <;> rfl
  · intro hu x hx
    obtain ⟨q, h4, h5⟩ := h.here (hlive ▸ hu) x (h3 ▸ hx)
    refine ⟨q, ?_, h5⟩
    rw [hl]
    exact h4.append hdis
  · intro x hx
    obtain ⟨q, h4, h5⟩ := h.logged x (h3 ▸ hx)
    exact ⟨q, hback h4, h5⟩

theorem LineInv.sent {s s' : OpState} {u : Nat} {p : Outgoing} (h : LineInv s) (hl : s'.log = s.log ++ [.encoded u p])
    (hq : isQos1 p = true) (hid : packetId p ≠ 0) (h1 : s.ahead = (u, p) :: s'.ahead)
    (h2 : s'.sentOut = s.sentOut ++ [(u, p)]) (h3 : s'.nextUid = s.nextUid) (hu : live s.log = true) : LineInv s' := by
  have hlive : live s'.log = true := by rw [hl, live_append (by simp [Effect.phase]), hu]
  have henc : ∀ {w q}, .encoded w q ∈ s'.log → .encoded w q ∈ s.log ∨ w = u ∧ q = p := by
    intro w q hm
    rw [hl] at hm
    simpa using hm
  have hlat : ∀ {w q}, Lately s'.log (.encoded w q) → Lately s.log (.encoded w q) ∨ w = u ∧ q = p := by
    intro w q hm
    rw [hl] at hm
    simpa using hm.of_append
  have hsub : ∀ {u q}, .submitted u q ∈ s'.log → .submitted u q ∈ s.log := by
    intro u q hm
    rw [hl] at hm
    simpa using hm
  have hback : ∀ {u q}, Effect.encoded u q ∈ s.log → Effect.encoded u q ∈ s'.log := by
    intro u q hm; rw [hl]; exact List.mem_append_left _ hm
  have hmem : (u, p) ∈ s.ahead := by rw [h1]; simp
  have hin : ∀ {x}, x ∈ s'.ahead → x ∈ s.ahead := by intro x hx; rw [h1]; exact List.mem_cons_of_mem _ hx
  have hall : s'.sentOut ++ s'.ahead = s.sentOut ++ s.ahead := by rw [h2, h1]; simp
  have hgt : ∀ {x}, x ∈ s'.ahead → u < x.1 := by
    intro x hx
    have := h.sorted
    rw [h1, List.map_append, List.map_cons, List.pairwise_append, List.pairwise_cons] at this
    exact this.2.1.1 x.1 (List.mem_map.2 ⟨x, hx, rfl⟩)
  have huniq : ∀ {x}, x ∈ s.sentOut ++ s.ahead → x.1 = u → x = (u, p) := by
    intro x hx hxu
    exact unique_of_map (f := fun x : Nat × Outgoing => x.1) (h.sorted.imp (fun h => by omega)) x hx (u, p)
      (List.mem_append_right _ hmem) hxu
  refine ⟨by rw [hall]; exact h.sorted, by rw [hall, h3]; exact h.below, fun w q hm hw => ?_, fun w q hm => ?_, ?_, ?_, ?_, ?_, ?_, ?_, ?_, ?_⟩
  · rw [h3]
    rcases henc hm with hm | ⟨rfl, _⟩
    · exact h.encodedBelow w q hm hw
    · exact h.below (w, p) (List.mem_append_right _ hmem)
  · rw [h3]; exact h.submittedBelow w q (hsub hm)
  · intro hd; rw [hlive] at hd; cases hd
  · intro x hx w q hm hw
    rcases hlat hm with hm | ⟨rfl, _⟩
    · exact h.recent x (hin hx) w q hm hw
    · exact hgt hx
  · intro x hx
    rcases h.first x (hin hx) with ⟨q, h4, h5⟩ | h4
    · exact .inl ⟨q, hback h4, h5⟩
    · refine .inr fun w q hm hw => ?_
      rcases henc hm with hm | ⟨rfl, _⟩
      · exact h4 w q hm hw
      · exact hgt hx
  · intro x hx q hm hw
    rw [hall] at hx
    rcases henc hm with hm | ⟨hu, rfl⟩
    · exact h.content x hx q hm hw
    · rw [huniq hx hu]; exact ⟨rfl, hid⟩
  · intro x hx q hm hw
    rcases hx with hx | ⟨_, hd⟩
    · rcases henc hm with hm | ⟨hu, rfl⟩
      · exact h.dup x (.inl (hin hx)) q hm hw
      · have := hgt hx; omega
    · rw [hlive] at hd; cases hd
  · intro x hx hno q hm
    exact h.orig x (hin hx) (fun q hm => hno q (hback hm)) q (hsub hm)
  · intro _ x hx
    rw [h2] at hx
    rcases List.mem_append.1 hx with hx | hx
    · obtain ⟨q, h4, h5⟩ := h.here hu x hx
      refine ⟨q, ?_, h5⟩
      rw [hl]
      exact h4.append (by simp)
    · simp at hx
      subst hx
      refine ⟨p, ?_, hq⟩
      rw [hl]
      exact .last ..
  · intro x hx
    rw [h2] at hx
    rcases List.mem_append.1 hx with hx | hx
    · obtain ⟨q, h4, h5⟩ := h.logged x hx
      exact ⟨q, hback h4, h5⟩
    · simp at hx
      subst hx
      exact ⟨p, by rw [hl]; simp, hq⟩

theorem LineInv.lost {s s' : OpState} {done : List Effect} (h : LineInv s)
    (hl : s'.log = s.log ++ (done ++ [.disconnected])) (hn : ∀ e ∈ done, e.dull = true)
    (h1 : s'.ahead.Sublist s.ahead) (h2 : s'.sentOut = s.sentOut.map (fun x => (x.1, withDup x.2)))
    (hqs : ∀ x ∈ s.sentOut, isQos1 x.2 = true)
    (h3 : s'.nextUid = s.nextUid) : LineInv s' := by
  have hl' : s'.log = (s.log ++ done) ++ [.disconnected] := by rw [hl, List.append_assoc]
  have hlive : live s'.log = false := by rw [hl', live_disconnected]
  have henc : ∀ {w q}, .encoded w q ∈ s'.log → isQos1 q = true → .encoded w q ∈ s.log := by
    intro w q hm hq
    rw [hl'] at hm
    simp only [List.mem_append, List.mem_singleton, reduceCtorEq, or_false] at hm
    rcases hm with hm | hm
    · exact hm
    · rw [dull_encoded hn hm] at hq; cases hq
  have hlat : ∀ {w q}, ¬Lately s'.log (.encoded w q) := by
    intro w q hm
    rw [hl'] at hm
    cases hm.after
  have hsub : ∀ {u q}, .submitted u q ∈ s'.log → .submitted u q ∈ s.log := by
    intro u q hm
    rw [hl'] at hm
    simp only [List.mem_append, List.mem_singleton, reduceCtorEq, or_false] at hm
    rcases hm with hm | hm
    · exact hm
    · have := hn _ hm; cases this
  have hback : ∀ {u q}, Effect.encoded u q ∈ s.log → Effect.encoded u q ∈ s'.log := by
    intro u q hm; rw [hl]; exact List.mem_append_left _ hm
  have hmap : (s'.sentOut ++ s'.ahead).map (·.1) = s.sentOut.map (·.1) ++ s'.ahead.map (·.1) := by
    rw [h2]; simp [Function.comp_def]
  have hfrom : ∀ {x}, x ∈ s'.sentOut → ∃ y ∈ s.sentOut, x = (y.1, withDup y.2) := by
    intro x hx
    rw [h2] at hx
    obtain ⟨y, hy, rfl⟩ := List.mem_map.1 hx
    exact ⟨y, hy, rfl⟩
  refine ⟨?_, fun x hx => ?_, fun u q hm hq => ?_, fun u q hm => ?_, ?_, ?_, ?_, ?_, ?_, ?_, ?_, ?_⟩
  · rw [hmap]
    have := h.sorted
    rw [List.map_append] at this
    exact this.sublist ((List.Sublist.refl _).append (h1.map _))
  · rw [h3]
    rcases List.mem_append.1 hx with hx | hx
    · obtain ⟨y, hy, rfl⟩ := hfrom hx
      exact h.below y (List.mem_append_left _ hy)
    · exact h.below x (List.mem_append_right _ (h1.mem hx))
  · rw [h3]; exact h.encodedBelow u q (henc hm hq) hq
  · rw [h3]; exact h.submittedBelow u q (hsub hm)
  · exact fun _ w q hm _ => hlat hm
  · exact fun x hx w q hm hq => (hlat hm).elim
  · intro x hx
    rcases h.first x (h1.mem hx) with ⟨q, h4, h5⟩ | h4
    · exact .inl ⟨q, hback h4, h5⟩
    · exact .inr fun w q hm hq => h4 w q (henc hm hq) hq
  · intro x hx q hm hq
    rcases List.mem_append.1 hx with hx | hx
    · obtain ⟨y, hy, rfl⟩ := hfrom hx
      have := h.content y (List.mem_append_left _ hy) q (henc hm hq) hq
      simpa using this
    · exact h.content x (List.mem_append_right _ (h1.mem hx)) q (henc hm hq) hq
  · intro x hx q hm hq
    rcases hx with hx | ⟨hx, _⟩
    · exact h.dup x (.inl (h1.mem hx)) q (henc hm hq) hq
    · obtain ⟨y, hy, rfl⟩ := hfrom hx
      exact isDup_withDup (hqs y hy)
  · intro x hx hno q hm
    exact h.orig x (h1.mem hx) (fun q hm => hno q (hback hm)) q (hsub hm)
  · intro hu; rw [hlive] at hu; cases hu
  · intro x hx
    obtain ⟨y, hy, rfl⟩ := hfrom hx
    obtain ⟨q, h4, h5⟩ := h.logged y hy
    exact ⟨q, hback h4, h5⟩

theorem LineInv.joined {s s' : OpState} {done : List Effect} {settings : Settings} (h : LineInv s)
    (hl : s'.log = s.log ++ (done ++ [.connected settings])) (hn : ∀ e ∈ done, e.dull = true)
    (h1 : s'.ahead.Sublist (s.sentOut ++ s.ahead)) (h2 : s'.sentOut = []) (h3 : s'.nextUid = s.nextUid)
    (hd : live s.log = false) : LineInv s' := by
  have hsent := h.logged
  have hl' : s'.log = (s.log ++ done) ++ [.connected settings] := by rw [hl, List.append_assoc]
  have hlive : live s'.log = true := by rw [hl', live_connected]
  have hn' : ∀ {w q}, .encoded w q ∈ done ++ [.connected settings] → isQos1 q = false := by
    intro w q hm
    simp only [List.mem_append, List.mem_singleton, reduceCtorEq, or_false] at hm
    exact dull_encoded hn hm
  have henc : ∀ {w q}, .encoded w q ∈ s'.log → isQos1 q = true → .encoded w q ∈ s.log := by
    intro w q hm hq
    rw [hl] at hm
    rcases List.mem_append.1 hm with hm | hm
    · exact hm
    · rw [hn' hm] at hq; cases hq
  have hlat : ∀ {w q}, Lately s'.log (.encoded w q) → isQos1 q = true → False := by
    intro w q hm hq
    rw [hl] at hm
    rcases hm.of_append with hm | hm
    · exact h.silent hd w q hm hq
    · rw [hn' hm] at hq; cases hq
  have hsub : ∀ {u q}, .submitted u q ∈ s'.log → .submitted u q ∈ s.log := by
    intro u q hm
    rw [hl'] at hm
    simp only [List.mem_append, List.mem_singleton, reduceCtorEq, or_false] at hm
    rcases hm with hm | hm
    · exact hm
    · have := hn _ hm; cases this
  have hback : ∀ {u q}, Effect.encoded u q ∈ s.log → Effect.encoded u q ∈ s'.log := by
    intro u q hm; rw [hl]; exact List.mem_append_left _ hm
  have hall : (s'.sentOut ++ s'.ahead).Sublist (s.sentOut ++ s.ahead) := by rw [h2]; exact h1
  refine ⟨h.sorted.sublist (hall.map _), fun x hx => ?_, fun u q hm hq => ?_, fun u q hm => ?_, ?_, ?_, ?_, ?_, ?_, ?_, ?_, ?_⟩
  · rw [h3]; exact h.below x (hall.mem hx)
  · rw [h3]; exact h.encodedBelow u q (henc hm hq) hq
  · rw [h3]; exact h.submittedBelow u q (hsub hm)
  · intro hx; rw [hlive] at hx; cases hx
  · exact fun x hx w q hm hq => (hlat hm hq).elim
  · intro x hx
    rcases List.mem_append.1 (h1.mem hx) with hx | hx
    · obtain ⟨q, h4, h5⟩ := hsent x hx
      exact .inl ⟨q, hback h4, h5⟩
    · rcases h.first x hx with ⟨q, h4, h5⟩ | h4
      · exact .inl ⟨q, hback h4, h5⟩
      · exact .inr fun w q hm hq => h4 w q (henc hm hq) hq
  · intro x hx q hm hq
    exact h.content x (hall.mem hx) q (henc hm hq) hq
  · intro x hx q hm hq
    rcases hx with hx | ⟨hx, _⟩
    · rcases List.mem_append.1 (h1.mem hx) with hx | hx
      · exact h.dup x (.inr ⟨hx, hd⟩) q (henc hm hq) hq
      · exact h.dup x (.inl hx) q (henc hm hq) hq
    · rw [h2] at hx; cases hx
  · intro x hx hno q hm
    rcases List.mem_append.1 (h1.mem hx) with hx | hx
    · obtain ⟨q', h4, h5⟩ := hsent x hx
      rw [hno q' (hback h4)] at h5
      cases h5
    · exact h.orig x hx (fun q hm => hno q (hback hm)) q (hsub hm)
  · intro _ x hx; rw [h2] at hx; cases hx
  · intro x hx; rw [h2] at hx; cases hx

theorem sentOut_qos1 (s : OpState) : ∀ x ∈ s.sentOut, isQos1 x.2 = true := by
  intro x hx
  exact (mem_qos1s (u := x.1) (p := x.2)).1 hx |>.1

theorem line_move {cfg : Config} {c c' : Client} (hv : LiveInv c) (h : LineInv c.ops) (m : Move cfg c c') :
    LineInv c'.ops := by
  obtain ⟨new, hl, hx⟩ := move_line hv m
  cases hx with
  | other h1 h2 h3 h4 => exact h.other hl h1 h2 h3 h4
  | accepted p h1 h2 h3 h4 h5 =>
    subst h1
    refine h.submitted hl (by simp) h2 ?_ h5
    rw [h3]
    split
    · exact .inr ⟨rfl, h4⟩
    · exact .inl (by simp)
  | rejected p e h1 h2 h3 h4 =>
    subst h1
    exact h.submitted hl (by simp [Effect.dull]) h2 (.inl h3) h4
  | bound u p id rest h1 h2 h3 h4 h5 h6 => exact h.bound hl h1 h2 h3 h4 h5 h6
  | sent u p h1 h2 h3 h4 h5 h6 h7 => subst h1; exact h.sent hl h2 h3 h4 h5 h6 h7
  | lost done h1 h2 h3 h4 h5 => subst h1; exact h.lost hl h2 h3 h4 (sentOut_qos1 _) h5
  | joined done settings h1 h2 h3 h4 h5 h6 => subst h1; exact h.joined hl h2 h3 h4 h5 h6

/-! ## What is sent -/

/-- An operation of which a QoS 1 publish was sent is a QoS 1 publish. -/
def KindInv (c : Client) : Prop :=
  ∀ op ∈ c.ops.held, ∀ q, .encoded op.uid q ∈ c.ops.log → isQos1 q = true → isQos1 op.packet = true

theorem HeldInv.same {c : Client} (h : HeldInv c) {a b : Op} (ha : a ∈ c.ops.held) (hb : b ∈ c.ops.held)
    (hab : a.uid = b.uid) : a = b := by
  refine unique_of_map (f := fun o : Op => o.uid) (List.nodup_iff_count.2 fun u => ?_) a ha b hb hab
  have := h.once u
  unfold places born at this
  split at this <;> omega

theorem HeldInv.gone {c : Client} (h : HeldInv c) {u : Nat} (hu : u < c.ops.nextUid) :
    (∃ op ∈ c.ops.held, op.uid = u) ∨ u ∈ c.ops.log.filterMap Effect.gone := by
  have h1 := h.once u
  unfold places born at h1
  rw [if_pos hu] at h1
  by_cases h2 : u ∈ c.ops.log.filterMap Effect.gone
  · exact .inr h2
  · rw [List.count_eq_zero.2 h2] at h1
    have : u ∈ c.ops.held.map (·.uid) := List.count_pos_iff.1 (by omega)
    obtain ⟨op, h3, h4⟩ := List.mem_map.1 this
    exact .inl ⟨op, h3, h4⟩

theorem kind_move {cfg : Config} {c c' : Client} (hh : HeldInv c) (hv : LiveInv c) (hl : LineInv c.ops) (h : KindInv c)
    (m : Move cfg c c') : KindInv c' := by
  obtain ⟨new, hlog, hx⟩ := move_line hv m
  have key : ∀ op ∈ c.ops.held, ∀ q, .encoded op.uid q ∈ c'.ops.log → isQos1 q = true → isQos1 op.packet = true := by
    intro op ho q hm hq
    rw [hlog] at hm
    rcases List.mem_append.1 hm with hm | hm
    · exact h op ho q hm hq
    · cases hx with
      | other h1 => rw [dull_encoded h1 hm] at hq; cases hq
      | accepted p h1 => subst h1; simp at hm
      | rejected p e h1 => subst h1; simp at hm
      | bound u p id rest h1 => rw [dull_encoded h1 hm] at hq; cases hq
      | sent u p h1 h2 h3 h4 h5 h6 h7 h8 =>
        subst h1
        simp at hm
        obtain ⟨o, h9, h10, h11⟩ := h8
        have := hh.same ho (b := o) (by simp [OpState.held, h9]) (by rw [hm.1, h10])
        rw [this, h11]
        exact h2
      | lost done h1 h2 =>
        subst h1
        simp only [List.mem_append, List.mem_singleton, reduceCtorEq, or_false] at hm
        rw [dull_encoded h2 hm] at hq; cases hq
      | joined done settings h1 h2 =>
        subst h1
        simp only [List.mem_append, List.mem_singleton, reduceCtorEq, or_false] at hm
        rw [dull_encoded h2 hm] at hq; cases hq
  have fresh : ∀ q, .encoded c.ops.nextUid q ∈ c'.ops.log → isQos1 q = true → False := by
    intro q hm hq
    have hin : .encoded c.ops.nextUid q ∈ c.ops.log ∨ ∃ op ∈ c.ops.held, op.uid = c.ops.nextUid := by
      rw [hlog] at hm
      rcases List.mem_append.1 hm with hm | hm
      · exact .inl hm
      · cases hx with
        | other h1 => rw [dull_encoded h1 hm] at hq; cases hq
        | accepted p h1 => subst h1; simp at hm
        | rejected p e h1 => subst h1; simp at hm
        | bound u p id rest h1 => rw [dull_encoded h1 hm] at hq; cases hq
        | sent u p h1 h2 h3 h4 h5 h6 h7 h8 =>
          subst h1
          simp at hm
          obtain ⟨o, h9, h10, h11⟩ := h8
          exact .inr ⟨o, by simp [OpState.held, h9], by rw [h10, hm.1]⟩
        | lost done h1 h2 =>
          subst h1
          simp only [List.mem_append, List.mem_singleton, reduceCtorEq, or_false] at hm
          rw [dull_encoded h2 hm] at hq; cases hq
        | joined done settings h1 h2 =>
          subst h1
          simp only [List.mem_append, List.mem_singleton, reduceCtorEq, or_false] at hm
          rw [dull_encoded h2 hm] at hq; cases hq
    rcases hin with hin | ⟨op, h1, h2⟩
    · have := hl.encodedBelow _ _ hin hq; omega
    · have h3 := hh.once op.uid
      unfold places born at h3
      rw [if_neg (by omega)] at h3
      have : 1 ≤ (c.ops.held.map (·.uid)).count op.uid := List.one_le_count_iff.2 (List.mem_map.2 ⟨op, h1, rfl⟩)
      omega
  intro op ho q hm hq
  rcases move_born m op ho with ⟨o, h1, h2, h3⟩ | ⟨h1, _⟩
  · rw [← isQos1_congr h3]
    exact key o h1 q (h2 ▸ hm) hq
  · rw [h1] at hm
    exact (fresh q hm hq).elim

/-- What stands before a QoS 1 publish that is sent. -/
structure Follows (a : List Effect) (u : Nat) (p : Outgoing) : Prop where
  /-- Those sent since the last disconnect were submitted earlier. -/
  connection : ∀ w q, Lately a (.encoded w q) → isQos1 q = true → w < u
  /-- It has been sent before, or all sent so far were submitted earlier. -/
  first : (∃ q, .encoded u q ∈ a ∧ isQos1 q = true) ∨ ∀ w q, .encoded w q ∈ a → isQos1 q = true → w < u
  /-- The same packet has been sent before, and DUP is set. -/
  again : ∀ q, .encoded u q ∈ a → isQos1 q = true → withoutDup p = withoutDup q ∧ isDup p = true
  /-- It is sent for the first time, as submitted but for its packet id. -/
  fresh : (∀ q, .encoded u q ∈ a → isQos1 q = false) → ∀ q, .submitted u q ∈ a → withPacketId p 0 = q
  /-- It is sent for the first time; those sent before are done with or have been sent on this connection. -/
  resent : (∀ q, .encoded u q ∈ a → isQos1 q = false) → ∀ w q, .encoded w q ∈ a → isQos1 q = true →
    w ∈ a.filterMap Effect.gone ∨ ∃ q', Lately a (.encoded w q') ∧ isQos1 q' = true

def SentInv (c : Client) : Prop :=
  Each (fun a x => ∀ u p, x = .encoded u p → isQos1 p = true → Follows a u p) c.ops.log

theorem sent_move {cfg : Config} {c c' : Client} (hh : HeldInv c) (hv : LiveInv c) (hl : LineInv c.ops) (hk : KindInv c)
    (h : SentInv c) (m : Move cfg c c') : SentInv c' := by
  obtain ⟨new, hlog, hx⟩ := move_line hv m
  unfold SentInv
  rw [hlog]
  have dull : ∀ {done}, (∀ e ∈ done, Effect.dull e = true) → ∀ x, done ++ [x] = new → (∀ u p, x ≠ .encoded u p) →
      Each (fun a x => ∀ u p, x = .encoded u p → isQos1 p = true → Follows a u p) (c.ops.log ++ new) := by
    intro done h1 y h2 h3
    refine h.append fun a x b hab u p hu hq => ?_
    have : x ∈ new := by rw [hab]; simp
    rw [← h2] at this
    rcases List.mem_append.1 this with hm | hm
    · subst hu; rw [dull_encoded h1 hm] at hq; cases hq
    · simp at hm; subst hm; exact absurd hu (h3 u p)
  have plain : (∀ e ∈ new, Effect.dull e = true) →
      Each (fun a x => ∀ u p, x = .encoded u p → isQos1 p = true → Follows a u p) (c.ops.log ++ new) := by
    intro h1
    refine h.append fun a x b hab u p hu hq => ?_
    have hm : x ∈ new := by rw [hab]; simp
    subst hu; rw [dull_encoded h1 hm] at hq; cases hq
  cases hx with
  | other h1 => exact plain h1
  | accepted p h1 => exact dull (done := []) (by simp) _ h1.symm (by simp)
  | rejected p e h1 =>
    refine h.append fun a x b hab u q hu hq => ?_
    have : x ∈ new := by rw [hab]; simp
    subst h1; subst hu
    simp at this
  | bound u p id rest h1 => exact plain h1
  | lost done h1 h2 => exact dull h2 _ h1.symm (by simp)
  | joined done settings h1 h2 => exact dull h2 _ h1.symm (by simp)
  | sent u p h1 h2 h3 h4 h5 h6 h7 h8 =>
    subst h1
    refine h.append fun a x b hab w q hw hq => ?_
    obtain ⟨rfl, hxe, _⟩ := split_one hab
    rw [hxe] at hw
    simp at hw
    obtain ⟨rfl, rfl⟩ := hw
    rw [List.append_nil]
    have hmem : (u, p) ∈ c.ops.ahead := by rw [h4]; simp
    refine ⟨hl.recent _ hmem, hl.first _ hmem, fun q hm hq => ⟨(hl.content _ (List.mem_append_right _ hmem) q hm hq).1,
      hl.dup _ (.inl hmem) q hm hq⟩, hl.orig _ hmem, fun hno w q hm hq => ?_⟩
    have hlt : w < u := by
      rcases hl.first _ hmem with ⟨q', h9, h10⟩ | h9
      · rw [hno q' h9] at h10; cases h10
      · exact h9 w q hm hq
    rcases hh.gone (hl.encodedBelow w q hm hq) with ⟨op, ho, rfl⟩ | hg
    · have hqo := hk op ho q hm hq
      right
      simp only [OpState.held, List.mem_append] at ho
      have ahead : (op.uid, op.packet) ∉ c.ops.ahead := by
        intro hx
        have hs := hl.sorted
        rw [h4] at hx hs
        rw [List.map_append, List.map_cons, List.pairwise_append, List.pairwise_cons] at hs
        rcases List.mem_cons.1 hx with hx | hx
        · simp at hx; omega
        · have := hs.2.1.1 op.uid (List.mem_map.2 ⟨_, hx, rfl⟩)
          omega
      rcases ho with ho | ho | ho | ho
      · exact absurd (mem_qos1s.2 ⟨hqo, op, List.mem_append_right _ ho, rfl, rfl⟩) ahead
      · exact absurd (mem_qos1s.2 ⟨hqo, op, List.mem_append_left _ ho, rfl, rfl⟩) ahead
      · have := hv.plain op ho
        cases hp : op.packet <;> rw [hp] at hqo this <;> first | cases hqo | skip
        simp [requiresAck, isQos1] at hqo this
        exact absurd this hqo
      · exact hl.here h7 (op.uid, op.packet) (mem_qos1s.2 ⟨hqo, op, ho, rfl, rfl⟩)
    · exact .inl hg

theorem reachable_line {cfg : Config} {c : Client} (h : Reachable cfg c) : LineInv c.ops ∧ KindInv c ∧ SentInv c :=
  (reachable_inv (P := fun c => (HeldInv c ∧ LiveInv c) ∧ LineInv c.ops ∧ KindInv c ∧ SentInv c)
    ⟨⟨held_new cfg, live_new cfg⟩, line_new cfg, by intro op ho; simp [Client.new, OpState.held] at ho, Each.nil _⟩
    (fun _ _ ⟨⟨hh, hv⟩, hl, hk, hs⟩ m => ⟨⟨held_move hh m, live_move hh hv m⟩, line_move hv hl m, kind_move hh hv hl hk m,
      sent_move hh hv hl hk hs m⟩) h).2

end Mqtt.Client5
