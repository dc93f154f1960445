import Verif.Lemmas.Client5

/-!
What the functions of the operational state of the MQTT 5 client do to its fields.
-/
namespace Mqtt.Client5

open Mqtt.V5

theorem completeStats_append (st : Stats) (a b : List Op) :
    completeStats st (a ++ b) = completeStats (completeStats st a) b := by
  simp [completeStats]

theorem completions_append (a b : List Op) (e : Error) :
    completions (a ++ b) e = completions a e ++ completions b e := by
  simp [completions]

/-! ### `resetManual` -/

section
variable (s : OpState)
@[simp] theorem resetManual_queued : s.resetManual.queued = s.queued := by unfold OpState.resetManual; split <;> rfl
@[simp] theorem resetManual_current : s.resetManual.current = s.current := by unfold OpState.resetManual; split <;> rfl
@[simp] theorem resetManual_writing : s.resetManual.writing = s.writing := by unfold OpState.resetManual; split <;> rfl
@[simp] theorem resetManual_unacked : s.resetManual.unacked = s.unacked := by unfold OpState.resetManual; split <;> rfl
@[simp] theorem resetManual_table : s.resetManual.table = s.table := by unfold OpState.resetManual; split <;> rfl
@[simp] theorem resetManual_timeouts : s.resetManual.timeouts = s.timeouts := by
  unfold OpState.resetManual; split <;> rfl
@[simp] theorem resetManual_nextId : s.resetManual.nextId = s.nextId := by unfold OpState.resetManual; split <;> rfl
@[simp] theorem resetManual_nextUid : s.resetManual.nextUid = s.nextUid := by unfold OpState.resetManual; split <;> rfl
@[simp] theorem resetManual_tokens : s.resetManual.tokens = s.tokens := by unfold OpState.resetManual; split <;> rfl
@[simp] theorem resetManual_stats : s.resetManual.stats = s.stats := by unfold OpState.resetManual; split <;> rfl
@[simp] theorem resetManual_encoder : s.resetManual.encoder = s.encoder := by unfold OpState.resetManual; split <;> rfl
@[simp] theorem resetManual_pendingWrite : s.resetManual.pendingWrite = s.pendingWrite := by
  unfold OpState.resetManual; split <;> rfl
@[simp] theorem resetManual_log : s.resetManual.log = s.log := by unfold OpState.resetManual; split <;> rfl
end

/-! ### `onDisconnection` -/

section
variable (cfg : Config) (s : OpState)
@[simp] theorem onDisconnection_queued :
    (s.onDisconnection cfg).queued = keep cfg.offline (s.current.toList ++ s.queued) := by
  simp [OpState.onDisconnection, completeAll_eq]
@[simp] theorem onDisconnection_current : (s.onDisconnection cfg).current = none := by
  simp [OpState.onDisconnection, completeAll_eq]
@[simp] theorem onDisconnection_writing : (s.onDisconnection cfg).writing = [] := by
  simp [OpState.onDisconnection, completeAll_eq]
@[simp] theorem onDisconnection_unacked :
    (s.onDisconnection cfg).unacked = keepUnacked cfg.offline (s.unacked.map markDisconnected) := by
  simp [OpState.onDisconnection, completeAll_eq]
@[simp] theorem onDisconnection_table : (s.onDisconnection cfg).table = [] := by
  simp [OpState.onDisconnection, completeAll_eq]
@[simp] theorem onDisconnection_timeouts : (s.onDisconnection cfg).timeouts = [] := by
  simp [OpState.onDisconnection, completeAll_eq]
@[simp] theorem onDisconnection_nextId : (s.onDisconnection cfg).nextId = s.nextId := by
  simp [OpState.onDisconnection, completeAll_eq]
@[simp] theorem onDisconnection_nextUid : (s.onDisconnection cfg).nextUid = s.nextUid := by
  simp [OpState.onDisconnection, completeAll_eq]
@[simp] theorem onDisconnection_tokens : (s.onDisconnection cfg).tokens = s.tokens := by
  simp [OpState.onDisconnection, completeAll_eq]
@[simp] theorem onDisconnection_stats :
    (s.onDisconnection cfg).stats = completeStats s.stats (s.lostOnDisconnection cfg) := by
  simp [OpState.onDisconnection, OpState.lostOnDisconnection, completeAll_eq, completeStats_append]
@[simp] theorem onDisconnection_encoder : (s.onDisconnection cfg).encoder = s.encoder := by
  simp [OpState.onDisconnection, completeAll_eq]
@[simp] theorem onDisconnection_pendingWrite : (s.onDisconnection cfg).pendingWrite = s.pendingWrite := by
  simp [OpState.onDisconnection, completeAll_eq]
@[simp] theorem onDisconnection_log :
    (s.onDisconnection cfg).log =
      s.log ++ (completions (s.lostOnDisconnection cfg) .offlinePolicy ++ [.disconnected]) := by
  simp [OpState.onDisconnection, OpState.lostOnDisconnection, completeAll_eq, completions_append]
end

/-! ### `onConnection` -/

/-- The queue after a connection, without the changed statistics flags. -/
def requeued (cfg : Config) (settings : Settings) (s : OpState) : List Op :=
  if settings.rejoinedSession then
    s.unacked.filter (fun op => isQos1 op.packet) ++ (s.unacked.filter (fun op => !isQos1 op.packet) ++ s.queued)
  else keep cfg.offline s.unacked ++ s.queued

/-- The operations failed by a connection. -/
def lostOnConnection (cfg : Config) (settings : Settings) (s : OpState) : List Op :=
  if settings.rejoinedSession then [] else lose cfg.offline s.unacked

section
variable (cfg : Config) (settings : Settings) (s : OpState)
@[simp] theorem onConnection_queued : (s.onConnection cfg settings).queued =
    (changeStatsAll (completeStats s.stats (lostOnConnection cfg settings s)) true false (requeued cfg settings s)).2 := by
  unfold OpState.onConnection requeued lostOnConnection
  split <;> simp [completeAll_eq, completeStats]
@[simp] theorem onConnection_current : (s.onConnection cfg settings).current = s.current := by
  unfold OpState.onConnection; split <;> simp [completeAll_eq]
@[simp] theorem onConnection_writing : (s.onConnection cfg settings).writing = s.writing := by
  unfold OpState.onConnection; split <;> simp [completeAll_eq]
@[simp] theorem onConnection_unacked : (s.onConnection cfg settings).unacked = [] := by
  unfold OpState.onConnection; split <;> simp [completeAll_eq]
@[simp] theorem onConnection_table : (s.onConnection cfg settings).table = s.table := by
  unfold OpState.onConnection; split <;> simp [completeAll_eq]
@[simp] theorem onConnection_timeouts : (s.onConnection cfg settings).timeouts =
    s.timeouts.filter (fun u => !((lostOnConnection cfg settings s).map (·.uid)).contains u) := by
  unfold OpState.onConnection lostOnConnection
  split
  · simp only [List.map_nil, List.contains_nil, Bool.not_false]
    exact (List.filter_eq_self.2 (by simp)).symm
  · simp [completeAll_eq]
@[simp] theorem onConnection_nextId : (s.onConnection cfg settings).nextId = s.nextId := by
  unfold OpState.onConnection; split <;> simp [completeAll_eq]
@[simp] theorem onConnection_nextUid : (s.onConnection cfg settings).nextUid = s.nextUid := by
  unfold OpState.onConnection; split <;> simp [completeAll_eq]
@[simp] theorem onConnection_tokens :
    (s.onConnection cfg settings).tokens = settings.receiveMaximumFromServer := by
  unfold OpState.onConnection; split <;> simp
@[simp] theorem onConnection_stats : (s.onConnection cfg settings).stats =
    (changeStatsAll (completeStats s.stats (lostOnConnection cfg settings s)) true false (requeued cfg settings s)).1 := by
  unfold OpState.onConnection requeued lostOnConnection
  split <;> simp [completeAll_eq, completeStats]
@[simp] theorem onConnection_steps : (s.onConnection cfg settings).encoder.steps = s.encoder.steps := by
  unfold OpState.onConnection; split <;> simp [completeAll_eq]
@[simp] theorem onConnection_resolver : (s.onConnection cfg settings).encoder.resolver =
    some ((TopicAlias.Outbound.new cfg.outboundAliases).reset settings.topicAliasMaximumToServer) := by
  unfold OpState.onConnection; split <;> simp
@[simp] theorem onConnection_pendingWrite : (s.onConnection cfg settings).pendingWrite = s.pendingWrite := by
  unfold OpState.onConnection; split <;> simp [completeAll_eq]
@[simp] theorem onConnection_manualIds : (s.onConnection cfg settings).manualIds = s.manualIds := by
  unfold OpState.onConnection; split <;> simp [completeAll_eq]
@[simp] theorem onConnection_manualCtl : (s.onConnection cfg settings).manualCtl = s.manualCtl := by
  unfold OpState.onConnection; split <;> simp [completeAll_eq]
@[simp] theorem onConnection_nextCtl : (s.onConnection cfg settings).nextCtl = s.nextCtl := by
  unfold OpState.onConnection; split <;> simp [completeAll_eq]
@[simp] theorem onConnection_log : (s.onConnection cfg settings).log =
    s.log ++ (completions (lostOnConnection cfg settings s) .offlinePolicy ++ [.connected settings]) := by
  unfold OpState.onConnection lostOnConnection
  split <;> simp [completeAll_eq, completions]
end

/-! ### `resetAll` -/

section
variable (s : OpState) (e : Error)
@[simp] theorem resetAll_queued : (s.resetAll e).queued = [] := by simp [OpState.resetAll, completeAll_eq]
@[simp] theorem resetAll_current : (s.resetAll e).current = s.current := by simp [OpState.resetAll, completeAll_eq]
@[simp] theorem resetAll_writing : (s.resetAll e).writing = [] := by simp [OpState.resetAll, completeAll_eq]
@[simp] theorem resetAll_unacked : (s.resetAll e).unacked = [] := by simp [OpState.resetAll, completeAll_eq]
@[simp] theorem resetAll_table : (s.resetAll e).table = [] := by simp [OpState.resetAll, completeAll_eq]
@[simp] theorem resetAll_timeouts : (s.resetAll e).timeouts = [] := by simp [OpState.resetAll, completeAll_eq]
@[simp] theorem resetAll_nextId : (s.resetAll e).nextId = s.nextId := by simp [OpState.resetAll, completeAll_eq]
@[simp] theorem resetAll_nextUid : (s.resetAll e).nextUid = s.nextUid := by simp [OpState.resetAll, completeAll_eq]
@[simp] theorem resetAll_tokens : (s.resetAll e).tokens = s.tokens := by simp [OpState.resetAll, completeAll_eq]
@[simp] theorem resetAll_stats :
    (s.resetAll e).stats = completeStats s.stats (s.queued ++ s.writing ++ s.unacked) := by
  simp [OpState.resetAll, completeAll_eq, completeStats_append]
@[simp] theorem resetAll_encoder : (s.resetAll e).encoder = s.encoder := by simp [OpState.resetAll, completeAll_eq]
@[simp] theorem resetAll_pendingWrite : (s.resetAll e).pendingWrite = s.pendingWrite := by
  simp [OpState.resetAll, completeAll_eq]
@[simp] theorem resetAll_log :
    (s.resetAll e).log = s.log ++ completions (s.queued ++ s.writing ++ s.unacked) e := by
  simp [OpState.resetAll, completeAll_eq, completions_append]
end

/-! ### Statistics flags -/

/-- Nothing but the size and the flags changes. -/
theorem changeStats_op (st : Stats) (op : Op) (a b : Bool) :
    (changeStats st op a b).2.uid = op.uid ∧ (changeStats st op a b).2.packet = op.packet ∧
      (changeStats st op a b).2.deadline = op.deadline ∧
      (changeStats st op a b).2.ackTimeoutSeconds = op.ackTimeoutSeconds := by
  unfold changeStats
  split
  · simp
  · split <;> simp

@[simp] theorem changeStats_uid (st : Stats) (op : Op) (a b : Bool) : (changeStats st op a b).2.uid = op.uid :=
  (changeStats_op st op a b).1
@[simp] theorem changeStats_packet (st : Stats) (op : Op) (a b : Bool) :
    (changeStats st op a b).2.packet = op.packet := (changeStats_op st op a b).2.1

theorem changeStatsAll_map {α} (f : Op → α)
    (hf : ∀ st op a b, f (changeStats st op a b).2 = f op) (st : Stats) (a b : Bool) (ops : List Op) :
    (changeStatsAll st a b ops).2.map f = ops.map f := by
  induction ops generalizing st with
  | nil => rfl
  | cons op ops ih => simp [changeStatsAll, hf, ih]

@[simp] theorem changeStatsAll_uids (st : Stats) (a b : Bool) (ops : List Op) :
    (changeStatsAll st a b ops).2.map (·.uid) = ops.map (·.uid) :=
  changeStatsAll_map _ (by simp) st a b ops

@[simp] theorem changeStatsAll_packets (st : Stats) (a b : Bool) (ops : List Op) :
    (changeStatsAll st a b ops).2.map (fun op => (op.uid, op.packet)) = ops.map (fun op => (op.uid, op.packet)) :=
  changeStatsAll_map _ (by simp) st a b ops

@[simp] theorem markDisconnected_uid (op : Op) : (markDisconnected op).uid = op.uid := by
  unfold markDisconnected
  split
  · split <;> rfl
  · rfl

/-! ### `setCurrent`, `finish` -/

/-- What setting up an operation for encoding comes to. -/
theorem setCurrent_cases {s s' : OpState} {op : Op} {ok : Bool} (h : s.setCurrent op = .ok (s', ok)) :
    (ok = false ∧ ∃ p nextId enc, s' =
        { s with nextId := nextId, encoder := enc, log := s.log ++ [.dropped op.uid p] } ∧ (p = op.packet ∨ ∃ id, p = withPacketId op.packet id)) ∨
    (ok = true ∧ ∃ op' nextId enc, s' = { s with
        nextId := nextId, encoder := enc, current := some op'
        log := s.log ++ [.started op'.uid op'.packet ((stepsBytes enc.steps).drop (stepsBytes s.encoder.steps).length)] } ∧
      s.bind op = some ({ s with nextId := nextId }, op') ∧ s.encoder.append op'.packet = .ok enc) := by
  unfold OpState.setCurrent at h
  cases hb : s.bind op with
  | none =>
    rw [hb] at h
    cases h
    exact .inl ⟨rfl, op.packet, s.nextId, s.encoder, rfl, .inl rfl⟩
  | some r =>
    rcases r with ⟨s1, op1⟩
    rw [hb] at h
    have hs1 : (∃ n, s1 = { s with nextId := n }) ∧ op1.uid = op.uid ∧
        (op1.packet = op.packet ∨ ∃ id, op1.packet = withPacketId op.packet id) := by
      unfold OpState.bind at hb
      split at hb
      · cases hb; exact ⟨⟨_, rfl⟩, rfl, .inl rfl⟩
      · split at hb
        · cases hb
        · cases hb; exact ⟨⟨_, rfl⟩, rfl, .inr ⟨_, rfl⟩⟩
    obtain ⟨⟨n, rfl⟩, h2, h3⟩ := hs1
    simp only at h
    split at h
    · cases h
    · rename_i enc ha
      cases h
      refine .inl ⟨rfl, op1.packet, n, enc, ?_, h3⟩
      rw [h2]
    · rename_i enc ha
      cases h
      exact .inr ⟨rfl, op1, n, enc, rfl, rfl, ha⟩

/-- Binding keeps everything but the packet id. -/
theorem bind_cases {s s' : OpState} {op op' : Op} (h : s.bind op = some (s', op')) :
    (needsId op.packet = false ∧ s' = s ∧ op' = op) ∨
    (needsId op.packet = true ∧ ∃ id, findId s.table u16max s.nextId = some id ∧
      s' = { s with nextId := nextPacketId id } ∧ op' = { op with packet := withPacketId op.packet id }) := by
  unfold OpState.bind at h
  split at h
  · rename_i hn; cases h; exact .inl ⟨by simpa using hn, rfl, rfl⟩
  · rename_i hn
    split at h
    · cases h
    · rename_i id hid
      cases h
      exact .inr ⟨by simpa using hn, id, hid, rfl, rfl⟩

theorem bind_uid {s s' : OpState} {op op' : Op} (h : s.bind op = some (s', op')) : op'.uid = op.uid := by
  rcases bind_cases h with ⟨_, _, rfl⟩ | ⟨_, id, _, _, rfl⟩ <;> rfl

theorem finish_cases {cfg : Config} {s s' : OpState} {op : Op} {now : Nat} (h : s.finish cfg op now = .ok s') :
    (isQos1 op.packet = true → 0 < s.tokens) ∧
    ((requiresAck op.packet = true ∧ packetId op.packet ≠ 0 ∧
      s' = OpState.finishAck cfg { s with tokens := if isQos1 op.packet then s.tokens - 1 else s.tokens } op now) ∨
     (requiresAck op.packet = false ∧
      s' = OpState.finishWrite { s with tokens := if isQos1 op.packet then s.tokens - 1 else s.tokens } op)) := by
  unfold OpState.finish at h
  split at h
  · cases h
  · rename_i ht
    refine ⟨fun hq => ?_, ?_⟩
    · simp [hq] at ht; omega
    · simp only at h
      split at h
      · rename_i hr
        split at h
        · cases h
        · rename_i hid
          cases h
          exact .inl ⟨hr, hid, rfl⟩
      · rename_i hr
        cases h
        exact .inr ⟨by simpa using hr, rfl⟩

theorem insertPuback_split (op : Op) (ops : List Op) :
    ∃ a b, ops = a ++ b ∧ insertPuback op ops = a ++ op :: b ∧ ∀ o ∈ a, isPingOrPuback o.packet = true := by
  induction ops with
  | nil => exact ⟨[], [], rfl, rfl, by simp⟩
  | cons o ops ih =>
    rw [insertPuback]
    split
    · rename_i h
      obtain ⟨a, b, h1, h2, h3⟩ := ih
      refine ⟨o :: a, b, by rw [h1]; rfl, by rw [h2]; rfl, ?_⟩
      simp only [List.mem_cons]
      rintro x (rfl | hx)
      · exact h
      · exact h3 x hx
    · exact ⟨[], o :: ops, rfl, rfl, by simp⟩

theorem takeUid_split {uid : Nat} {ops rest : List Op} {op : Op} (h : takeUid uid ops = some (op, rest)) :
    ∃ a b, ops = a ++ op :: b ∧ rest = a ++ b ∧ ∀ o ∈ a, o.uid ≠ uid := by
  induction ops generalizing rest with
  | nil => simp [takeUid] at h
  | cons o ops ih =>
    rw [takeUid] at h
    split at h
    · cases h; exact ⟨[], ops, rfl, rfl, by simp⟩
    · rename_i ho
      cases hx : takeUid uid ops with
      | none => simp [hx] at h
      | some r =>
        rcases r with ⟨o', r'⟩
        simp [hx] at h
        obtain ⟨h1, h2⟩ := h
        subst h1
        obtain ⟨a, b, h3, h4, h5⟩ := ih hx
        refine ⟨o :: a, b, by rw [h3]; rfl, by rw [← h2, h4]; rfl, ?_⟩
        simp only [List.mem_cons]
        rintro x (rfl | hx)
        · exact ho
        · exact h5 x hx

/-- The fields that have nothing to do with manual acknowledgements and the log are the same. -/
structure SameOps (s s1 : OpState) : Prop where
  queued : s1.queued = s.queued
  current : s1.current = s.current
  writing : s1.writing = s.writing
  unacked : s1.unacked = s.unacked
  table : s1.table = s.table
  timeouts : s1.timeouts = s.timeouts
  nextId : s1.nextId = s.nextId
  nextUid : s1.nextUid = s.nextUid
  tokens : s1.tokens = s.tokens
  stats : s1.stats = s.stats
  encoder : s1.encoder = s.encoder
  pendingWrite : s1.pendingWrite = s.pendingWrite

/-- Delivering a publish: a PUBACK may be queued. -/
theorem onPublish_queue (s : OpState) (v : PublishView) (acquire : Bool) :
    ∃ s1 ctl, SameOps s s1 ∧ s1.log = s.log ++ [.delivered v ctl] ∧
      (s.onPublish v acquire = s1 ∨ s.onPublish v acquire = s1.queuePuback v.packetId) := by
  unfold OpState.onPublish
  split
  · exact ⟨{ s with log := s.log ++ [.delivered v none] }, none, ⟨rfl, rfl, rfl, rfl, rfl, rfl, rfl, rfl, rfl, rfl, rfl, rfl⟩, rfl, .inl rfl⟩
  · have hacq : ∀ id, SameOps s (s.acquire id).1 ∧ (s.acquire id).1.log = s.log := by
      intro id
      unfold OpState.acquire
      split <;> exact ⟨⟨rfl, rfl, rfl, rfl, rfl, rfl, rfl, rfl, rfl, rfl, rfl, rfl⟩, rfl⟩
    obtain ⟨⟨h1, h2, h3, h4, h5, h6, h7, h8, h9, h10, h11, h12⟩, hl⟩ := hacq v.packetId
    cases acquire with
    | false =>
      simp only [Bool.false_eq_true, if_false]
      refine ⟨{ s with log := s.log ++ [.delivered v none] }, none,
        ⟨rfl, rfl, rfl, rfl, rfl, rfl, rfl, rfl, rfl, rfl, rfl, rfl⟩, rfl, ?_⟩
      split
      · exact .inl rfl
      · exact .inr rfl
    | true =>
      simp only [if_true]
      refine ⟨{ (s.acquire v.packetId).1 with
        log := (s.acquire v.packetId).1.log ++ [.delivered v (some (s.acquire v.packetId).2)] }, _,
        ⟨h1, h2, h3, h4, h5, h6, h7, h8, h9, h10, h11, h12⟩, by rw [hl], ?_⟩
      split
      · exact .inl rfl
      · exact .inr rfl

/-- Invoking an acknowledgement. -/
theorem invoke_queue (s : OpState) (ctl : Nat) :
    (∃ id s1, s.manualCtl.get ctl = some id ∧ SameOps s s1 ∧ s1.log = s.log ++ [.invoked ctl (some id)] ∧
      s1.manualIds = s.manualIds.del id ∧ s1.manualCtl = s.manualCtl.del ctl ∧ s1.nextCtl = s.nextCtl ∧
      s.invoke ctl = s1.queuePuback id) ∨
    (s.manualCtl.get ctl = none ∧ SameOps s (s.invoke ctl) ∧ (s.invoke ctl).log = s.log ++ [.invoked ctl none] ∧
      (s.invoke ctl).manualIds = s.manualIds ∧ (s.invoke ctl).manualCtl = s.manualCtl ∧
      (s.invoke ctl).nextCtl = s.nextCtl) := by
  unfold OpState.invoke
  split
  · rename_i id h
    exact .inl ⟨id, { s with
      manualIds := s.manualIds.del id, manualCtl := s.manualCtl.del ctl
      log := s.log ++ [.invoked ctl (some id)] }, h, ⟨rfl, rfl, rfl, rfl, rfl, rfl, rfl, rfl, rfl, rfl, rfl, rfl⟩, rfl, rfl, rfl, rfl, rfl⟩
  · rename_i h
    exact .inr ⟨h, ⟨rfl, rfl, rfl, rfl, rfl, rfl, rfl, rfl, rfl, rfl, rfl, rfl⟩, rfl, rfl, rfl, rfl⟩

theorem unique_of_map {α β} {f : α → β} {l : List α} (h : (l.map f).Nodup) :
    ∀ x ∈ l, ∀ y ∈ l, f x = f y → x = y := by
  induction l with
  | nil => intro x hx; cases hx
  | cons a l ih =>
    rw [List.map_cons, List.nodup_cons] at h
    intro x hx y hy hxy
    rcases List.mem_cons.1 hx with rfl | hx' <;> rcases List.mem_cons.1 hy with rfl | hy'
    · rfl
    · exact absurd (hxy ▸ List.mem_map.2 ⟨y, hy', rfl⟩) h.1
    · exact absurd (hxy ▸ List.mem_map.2 ⟨x, hx', rfl⟩) h.1
    · exact ih h.2 x hx' y hy' hxy

end Mqtt.Client5
