import Verif.Lemmas.Client5Fields

/-!
Every operation the MQTT 5 client has made is in exactly one place: one of its lists, or the log as
completed or dropped.
-/
namespace Mqtt.Client5

open Mqtt.V5

/-- The operations the client holds. -/
def OpState.held (s : OpState) : List Op := s.queued ++ (s.current.toList ++ (s.writing ++ s.unacked))

/-- An operation that has left the client. -/
def Effect.gone : Effect → Option Nat
  | .completed uid _ _ _ => some uid
  | .dropped uid _ => some uid
  | _ => none

/-- Number of times the operation is held, completed or dropped. -/
def places (s : OpState) (u : Nat) : Nat :=
  (s.held.map (·.uid)).count u + (s.log.filterMap Effect.gone).count u

theorem gone_completions (ops : List Op) (e : Error) :
    (completions ops e).filterMap Effect.gone = ops.map (·.uid) := by
  simp [completions, List.filterMap_map, Function.comp_def, Effect.gone]

theorem count_filter_not (p : Op → Bool) (ops : List Op) (u : Nat) :
    ((ops.filter p).map (·.uid)).count u + ((ops.filter fun o => !p o).map (·.uid)).count u =
      (ops.map (·.uid)).count u := by
  induction ops with
  | nil => rfl
  | cons o ops ih =>
    cases h : p o <;> simp [h, List.count_cons] <;> omega

theorem count_keep_lose (b : OfflineBehavior) (ops : List Op) (u : Nat) :
    ((keep b ops).map (·.uid)).count u + ((lose b ops).map (·.uid)).count u = (ops.map (·.uid)).count u :=
  count_filter_not _ ops u

theorem count_keepUnacked (b : OfflineBehavior) (ops : List Op) (u : Nat) :
    ((keepUnacked b ops).map (·.uid)).count u + ((loseUnacked b ops).map (·.uid)).count u =
      (ops.map (·.uid)).count u := by
  have := count_filter_not (fun op => !failsUnacked b op.packet) ops u
  simp only [Bool.not_not] at this
  exact this

theorem takeUid_count {uid : Nat} {ops rest : List Op} {op : Op} (h : takeUid uid ops = some (op, rest)) (u : Nat) :
    (ops.map (·.uid)).count u = (if op.uid = u then 1 else 0) + (rest.map (·.uid)).count u := by
  obtain ⟨a, b, rfl, rfl, _⟩ := takeUid_split h
  simp [List.count_append, List.count_cons]
  omega

theorem insertPuback_count (op : Op) (ops : List Op) (u : Nat) :
    ((insertPuback op ops).map (·.uid)).count u = (if op.uid = u then 1 else 0) + (ops.map (·.uid)).count u := by
  obtain ⟨a, b, rfl, h, _⟩ := insertPuback_split op ops
  rw [h]
  simp [List.count_append, List.count_cons]
  omega

theorem places_complete (s : OpState) (op : Op) (e : Error) (a : Option Received) (u : Nat) :
    places (s.complete op e a) u = places s u + (if op.uid = u then 1 else 0) := by
  simp [places, OpState.complete, OpState.held, Effect.gone, List.count_append, List.count_cons, Nat.add_assoc]

theorem requeued_count (cfg : Config) (settings : Settings) (s : OpState) (u : Nat) :
    ((requeued cfg settings s).map (·.uid)).count u + ((lostOnConnection cfg settings s).map (·.uid)).count u =
      (s.unacked.map (·.uid)).count u + (s.queued.map (·.uid)).count u := by
  unfold requeued lostOnConnection
  split
  · have := count_filter_not (fun op => isQos1 op.packet) s.unacked u
    simp only [List.map_append, List.count_append, List.map_nil, List.count_nil]
    omega
  · have := count_keep_lose cfg.offline s.unacked u
    simp only [List.map_append, List.count_append]
    omega

theorem places_onDisconnection (cfg : Config) (s : OpState) (u : Nat) :
    places (s.onDisconnection cfg) u = places s u := by
  have h1 := count_keep_lose cfg.offline (s.current.toList ++ s.queued) u
  have h2 := count_keepUnacked cfg.offline (s.unacked.map markDisconnected) u
  have h3 : ((s.unacked.map markDisconnected).map (·.uid)) = s.unacked.map (·.uid) := by simp
  rw [h3] at h2
  simp only [List.map_append, List.count_append] at h1
  simp only [places, OpState.held, onDisconnection_queued, onDisconnection_current, onDisconnection_writing,
    onDisconnection_unacked, onDisconnection_log, List.filterMap_append, gone_completions,
    OpState.lostOnDisconnection, List.map_append, List.count_append, Option.toList_none, List.map_nil,
    List.count_nil]
  have h4 : List.count u (List.filterMap Effect.gone [Effect.disconnected]) = 0 := by intros; rfl
  omega

theorem places_onConnection (cfg : Config) (settings : Settings) (s : OpState) (u : Nat) :
    places (s.onConnection cfg settings) u = places s u := by
  have h1 := requeued_count cfg settings s u
  simp only [places, OpState.held, onConnection_queued, onConnection_current, onConnection_writing,
    onConnection_unacked, onConnection_log, List.filterMap_append, gone_completions, List.map_append,
    List.count_append, List.map_nil, List.count_nil, changeStatsAll_uids]
  have h4 : List.count u (List.filterMap Effect.gone [Effect.connected settings]) = 0 := by intros; rfl
  omega

theorem places_resetAll (s : OpState) (e : Error) (u : Nat) (h : s.current = none) :
    places (s.resetAll e) u = places s u := by
  simp only [places, OpState.held, resetAll_queued, resetAll_current, resetAll_writing, resetAll_unacked,
    resetAll_log, List.filterMap_append, gone_completions, List.map_append, List.count_append, List.map_nil,
    List.count_nil, h, Option.toList_none]
  omega

theorem places_queuePuback (s : OpState) (id u : Nat) :
    places (s.queuePuback id) u = places s u + (if s.nextUid = u then 1 else 0) := by
  have := insertPuback_count (s.newOp (.puback { packetId := id })) s.queued u
  have hu : (s.newOp (.puback { packetId := id })).uid = s.nextUid := rfl
  rw [hu] at this
  simp only [places, OpState.held, OpState.queuePuback, List.map_append, List.count_append, this,
    List.filterMap_append]
  have h4 : List.count u (List.filterMap Effect.gone [Effect.pubackQueued s.nextUid id]) = 0 := by intros; rfl
  omega

/-- Nothing else changes where operations are. -/
theorem places_congr {s s' : OpState} (h1 : s'.held = s.held)
    (h2 : s'.log.filterMap Effect.gone = s.log.filterMap Effect.gone) (u : Nat) : places s' u = places s u := by
  simp [places, h1, h2]

theorem places_sameOps {s s' : OpState} (h : SameOps s s')
    (h2 : s'.log.filterMap Effect.gone = s.log.filterMap Effect.gone) (u : Nat) : places s' u = places s u :=
  places_congr (by simp [OpState.held, h.queued, h.current, h.writing, h.unacked]) h2 u

/-- The operations made so far have the numbers below `n`. -/
def born (n u : Nat) : Nat := if u < n then 1 else 0

structure HeldInv (c : Client) : Prop where
  once : ∀ u, places c.ops u = born c.ops.nextUid u
  idle : c.ctl.state.quiet = true → c.ops.current = none ∧ c.ops.writing = []
  ended : c.ctl.state = .terminated → c.ops.held = []

theorem born_succ (n u : Nat) : born (n + 1) u = born n u + (if n = u then 1 else 0) := by
  unfold born
  split <;> split <;> split <;> omega

theorem held_new (cfg : Config) : HeldInv (Client.new cfg) :=
  ⟨by intro u; simp [places, Client.new, OpState.held, born], by simp [Client.new], by simp [Client.new, OpState.held]⟩

/-- The part of the invariant that does not depend on what the move does to the state. -/
theorem HeldInv.sameCtl {c : Client} {s : OpState} (hst : c.ctl.state ≠ .terminated)
    (h1 : ∀ u, places s u = born s.nextUid u)
    (h2 : c.ctl.state.quiet = true → s.current = none ∧ s.writing = []) : HeldInv ⟨s, c.ctl⟩ :=
  ⟨h1, h2, fun ht => absurd ht hst⟩

theorem held_of_nil {s : OpState} (h : s.held = []) :
    s.queued = [] ∧ s.current = none ∧ s.writing = [] ∧ s.unacked = [] := by
  unfold OpState.held at h
  simp at h
  exact h

theorem not_terminated_of_not_quiet {st : State} (h : st.quiet = false) : st ≠ .terminated := by
  rintro rfl; simp [State.quiet] at h

theorem held_move {cfg : Config} {c c' : Client} (h : HeldInv c) (m : Move cfg c c') : HeldInv c' := by
  obtain ⟨hone, hidle, hend⟩ := h
  cases m with
  | control k hk =>
    refine ⟨hone, fun hq => hidle (hk.ctl.quiet hq), fun ht => ?_⟩
    have hq : c.ctl.state.quiet = true := hk.ctl.quiet (by rw [ht]; rfl)
    have ht : k.state = .terminated := ht
    refine hend ?_
    cases hk with
    | shutdown e =>
      obtain ⟨_, h | h⟩ := shutdownChannel_cases c.ctl e
      · rw [← h]; exact ht
      · rw [h] at ht; cases ht
    | giveUp =>
      obtain ⟨_, h | h⟩ := shutdownChannel_cases c.ctl .userStop
      · rw [← h]; exact ht
      · rw [h] at ht; cases ht
    | emitShutdown e e' _ =>
      obtain ⟨_, h | h⟩ := shutdownChannel_cases (c.ctl.emitFinal e) e'
      · rw [emitFinal_state] at h; rw [← h]; exact ht
      · rw [h] at ht; cases ht
    | emitClean e e' h => cases ht
    | misc _ h1 => rw [← h1]; exact ht
    | desired d => exact ht
    | connecting _ _ => cases ht
    | kickOff e _ _ => cases ht
    | refuse _ _ => cases ht
    | opened _ _ => cases ht
    | settings s h => exact ht
    | clean e h => cases ht
  | accept p t hp hs hst =>
    refine HeldInv.sameCtl hst (fun u => ?_) (fun hq => hidle hq)
    have := hone u
    simp only [places, OpState.held, List.map_append, List.count_append] at this
    simp only [OpState.accept, places, OpState.held, List.map_append, List.count_append, List.map_cons,
      List.map_nil, changeStats_uid, List.filterMap_append, born_succ]
    have h4 : ∀ a b, List.count u (List.filterMap Effect.gone [Effect.submitted a b]) = 0 := by intros; rfl
    have h5 : (c.ops.newOp (withPacketId p 0) t).uid = c.ops.nextUid := rfl
    rw [h4, h5, List.count_singleton]
    simp only [beq_iff_eq]
    omega
  | reject p e hp =>
    refine ⟨fun u => ?_, hidle, hend⟩
    have := hone u
    simp only [places, OpState.held] at this
    simp only [OpState.reject, places, OpState.held, List.filterMap_append, List.count_append, born_succ]
    have h4 : List.count u (List.filterMap Effect.gone [Effect.submitted c.ops.nextUid p,
        Effect.completed c.ops.nextUid p e none]) = if c.ops.nextUid = u then 1 else 0 := by
      have : List.filterMap Effect.gone [Effect.submitted c.ops.nextUid p,
        Effect.completed c.ops.nextUid p e none] = [c.ops.nextUid] := rfl
      rw [this, List.count_singleton]; simp only [beq_iff_eq]
    omega
  | push p hp hst =>
    refine HeldInv.sameCtl hst (fun u => ?_) (fun hq => hidle hq)
    have := hone u
    simp only [places, OpState.held] at this
    simp only [OpState.pushFront, places, OpState.held, List.cons_append, List.map_cons, List.count_cons, born_succ]
    have h5 : (c.ops.newOp p).uid = c.ops.nextUid := rfl
    rw [h5]
    simp only [beq_iff_eq]
    omega
  | publish v a hst =>
    have hst' : c.ctl.state.quiet = false := by rcases hst with h | h <;> simp [h, State.quiet]
    refine HeldInv.sameCtl (not_terminated_of_not_quiet hst') (fun u => ?_)
      (fun hq => by rw [hst'] at hq; cases hq)
    obtain ⟨s1, ctl, hs, hl, hx⟩ := onPublish_queue c.ops v a
    have hp := places_sameOps hs (by simp [hl, Effect.gone]) u
    rcases hx with hx | hx
    · rw [hx, hp, hone u, hs.nextUid]
    · rw [hx, places_queuePuback, hp, hone u]
      simp only [OpState.queuePuback, born_succ, hs.nextUid]
  | invoke ctl hst =>
    rcases invoke_queue c.ops ctl with ⟨id, s1, _, hs, hl, _, _, _, hx⟩ | ⟨_, hs, hl, _⟩
    · rw [hx]
      refine HeldInv.sameCtl hst (fun u => ?_) (fun hq => ?_)
      · rw [places_queuePuback, places_sameOps hs (by simp [hl, Effect.gone]) u, hone u]
        simp only [OpState.queuePuback, born_succ, hs.nextUid]
      · simp only [OpState.queuePuback, hs.current, hs.writing]; exact hidle hq
    · refine HeldInv.sameCtl hst (fun u => ?_) (fun hq => ?_)
      · rw [places_sameOps hs (by simp [hl, Effect.gone]) u, hone u, hs.nextUid]
      · rw [hs.current, hs.writing]; exact hidle hq
  | token id hst =>
    refine ⟨fun u => ?_, hidle, hend⟩
    refine Eq.trans ?_ (hone u)
    refine places_congr ?_ ?_ u
    · rfl
    · simp [Client.onPuback, Effect.gone]
  | invalid op rest e hq he =>
    refine ⟨fun u => ?_, fun q => hidle q, fun ht => ?_⟩
    · refine Eq.trans ?_ (hone u)
      rw [places_complete]
      simp only [places, OpState.held, hq, List.cons_append, List.map_cons, List.count_cons, beq_iff_eq]
      omega
    · have := hend ht
      simp [OpState.held, hq] at this
  | start op rest s ok hq hc he hst hs =>
    have hst' : c.ctl.state.quiet = false := by
      rcases hst with h | ⟨h, _⟩ | ⟨h, _⟩ <;> simp [h, State.quiet]
    refine HeldInv.sameCtl (not_terminated_of_not_quiet hst') (fun u => ?_)
      (fun hq => by rw [hst'] at hq; cases hq)
    have h1 := hone u
    simp only [places, OpState.held, hq, hc, List.cons_append, List.map_cons, List.count_cons, beq_iff_eq,
      Option.toList_none, List.nil_append, List.map_append, List.count_append] at h1
    rcases setCurrent_cases hs with ⟨_, p, n, enc, rfl, _⟩ | ⟨_, op', n, enc, rfl, hb, _⟩
    · simp only [places, OpState.held, hc, List.map_append, List.count_append, List.filterMap_append,
        Option.toList_none, List.nil_append]
      have h4 : List.count u (List.filterMap Effect.gone [Effect.dropped op.uid p]) =
        if op.uid = u then 1 else 0 := by
        have : List.filterMap Effect.gone [Effect.dropped op.uid p] = [op.uid] := rfl
        rw [this, List.count_singleton]; simp only [beq_iff_eq]
      omega
    · have := bind_uid hb
      simp only [places, OpState.held, List.map_append, List.count_append, List.filterMap_append,
        Option.toList_some, List.map_cons, List.map_nil, this]
      have h4 : ∀ a b w, List.count u (List.filterMap Effect.gone [Effect.started a b w]) = 0 := by intros; rfl
      have h5 : List.count u [op.uid] = if op.uid = u then 1 else 0 := by simp [List.count_singleton]
      rw [h4]
      omega
  | encode op buf buf' enc r hc he =>
    exact ⟨hone, hidle, hend⟩
  | finish op now s hc hsteps hs =>
    have hst' : c.ctl.state.quiet = false := by
      cases hq : c.ctl.state.quiet with
      | false => rfl
      | true => rw [(hidle hq).1] at hc; cases hc
    refine HeldInv.sameCtl (not_terminated_of_not_quiet hst') (fun u => ?_)
      (fun hq => by rw [hst'] at hq; cases hq)
    have h1 := hone u
    simp only [places, OpState.held, hc, Option.toList_some, List.map_append, List.count_append, List.map_cons,
      List.map_nil] at h1
    have h5 : List.count u [op.uid] = if op.uid = u then 1 else 0 := by simp [List.count_singleton]
    have h4 : ∀ a b, List.count u (List.filterMap Effect.gone [Effect.encoded a b]) = 0 := by intros; rfl
    obtain ⟨_, ⟨_, _, rfl⟩ | ⟨_, rfl⟩⟩ := finish_cases hs
    · simp only [places, OpState.held, OpState.finishAck, Option.toList_none, List.map_append, List.count_append,
        List.map_cons, List.map_nil, changeStats_uid, List.filterMap_append, List.nil_append, h4, h5]
      omega
    · simp only [places, OpState.held, OpState.finishWrite, Option.toList_none, List.map_append, List.count_append,
        List.map_cons, List.map_nil, List.filterMap_append, List.nil_append, h4, h5]
      omega
  | write data =>
    refine ⟨fun u => ?_, hidle, hend⟩
    refine Eq.trans ?_ (hone u)
    refine places_congr ?_ ?_ u
    · rfl
    · simp [Effect.gone]
  | pinged uid =>
    refine ⟨fun u => ?_, hidle, hend⟩
    refine Eq.trans ?_ (hone u)
    refine places_congr ?_ ?_ u
    · rfl
    · simp [Effect.gone]
  | unwrite => exact ⟨hone, hidle, hend⟩
  | written e =>
    refine ⟨fun u => ?_, fun q => ?_, fun ht => ?_⟩
    · rw [completeAll_eq]
      have h1 := hone u
      simp only [places, OpState.held, List.map_append, List.count_append, List.filterMap_append,
        gone_completions, List.nil_append] at h1 ⊢
      omega
    · rw [completeAll_eq]; exact ⟨(hidle q).1, rfl⟩
    · have := held_of_nil (hend ht)
      rw [completeAll_eq]
      simp [OpState.held, this]
  | ack id uid op rest e a ht hu =>
    refine ⟨fun u => ?_, fun q => hidle q, fun htm => ?_⟩
    · refine Eq.trans ?_ (hone u)
      rw [places_complete]
      simp only [places, OpState.held, List.map_append, List.count_append, takeUid_count hu u]
      omega
    · have := held_of_nil (hend htm)
      rw [this.2.2.2] at hu
      simp [takeUid] at hu
  | timeout op rest hu ht =>
    refine ⟨fun u => ?_, fun q => hidle q, fun htm => ?_⟩
    · refine Eq.trans ?_ (hone u)
      rw [places_complete]
      simp only [places, OpState.held, List.map_append, List.count_append, takeUid_count hu u]
      omega
    · have := held_of_nil (hend htm)
      rw [this.2.2.2] at hu
      simp [takeUid] at hu
  | forget uid => exact ⟨hone, hidle, hend⟩
  | fresh hq => exact ⟨hone, hidle, hend⟩
  | disconnection e st hst =>
    refine ⟨fun u => ?_, fun _ => ⟨by simp, by simp⟩, fun ht => ?_⟩
    · rw [places_onDisconnection, onDisconnection_nextUid]; exact hone u
    · simp only at ht; subst ht; rcases hst with h | h <;> cases h
  | connection settings now hst =>
    have hq := (toConnected_ctl cfg { c with ctl := { c.ctl with settings := settings } } now).2
    refine ⟨fun u => ?_, fun q => ?_, fun ht => ?_⟩
    · simp only [Client.toConnected]
      rw [places_onConnection, onConnection_nextUid]; exact hone u
    · rcases hq with h | h <;> simp [h, State.quiet] at q
    · rcases hq with h | h <;> simp [h] at ht
  | reset hst =>
    have hq : c.ctl.state.quiet = true := by rcases hst with h | h <;> simp [h, State.quiet]
    refine ⟨fun u => ?_, fun q => ?_, fun ht => ?_⟩
    · simp only [Client.toStopped]
      rw [places_resetAll _ _ _ (hidle hq).1, resetAll_nextUid]; exact hone u
    · exact ⟨by simp [Client.toStopped, (hidle hq).1], by simp [Client.toStopped]⟩
    · rw [toStopped_quiet] at ht; cases ht
  | terminate hst hd =>
    have hq : c.ctl.state.quiet = true := by simp [hst, State.quiet]
    have hcur := (hidle hq).1
    refine ⟨fun u => ?_, fun q => ?_, fun ht => ?_⟩
    · simp only [Client.toTerminated]
      refine Eq.trans (b := places (c.ops.resetAll .terminated) u) ?_ ?_
      · exact places_congr (by rfl) (by rfl) u
      · rw [places_resetAll _ _ _ hcur, resetAll_nextUid]
        exact hone u
    · exact ⟨by simp [Client.toTerminated, hcur], by simp [Client.toTerminated]⟩
    · simp [Client.toTerminated, OpState.held, hcur]

theorem reachable_held {cfg : Config} {c : Client} (h : Reachable cfg c) : HeldInv c :=
  reachable_inv (held_new cfg) (fun _ _ h m => held_move h m) h

end Mqtt.Client5
