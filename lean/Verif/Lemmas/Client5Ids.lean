import Verif.Lemmas.Client5Track

/-!
Packet ids of the MQTT 5 client before its counter has wrapped around.
-/
namespace Mqtt.Client5

open Mqtt.V5

/-- Does this effect stand for an operation that needs an acknowledgement being set up for sending? -/
def isSetUp : Effect → Bool
  | .started _ p _ => requiresAck p
  | .dropped _ p => requiresAck p
  | _ => false

/-- How often an operation that needs an acknowledgement has been set up for sending. -/
def setUps (log : List Effect) : Nat := log.countP isSetUp

theorem setUps_append (l new : List Effect) : setUps (l ++ new) = setUps l + setUps new := by simp [setUps]

/-! ### Every operation after a move comes from one before it -/

/-- Same number, same packet id or none. -/
def From (before : List Op) (op : Op) : Prop :=
  packetId op.packet = 0 ∨ ∃ o ∈ before, o.uid = op.uid ∧ packetId o.packet = packetId op.packet

theorem From.mem {before : List Op} {op : Op} (h : op ∈ before) : From before op := .inr ⟨op, h, rfl, rfl⟩

theorem from_changeStatsAll {before ops : List Op} {st : Stats} {a b : Bool} (h : ∀ o ∈ ops, From before o) :
    ∀ o ∈ (changeStatsAll st a b ops).2, From before o := by
  intro o ho
  have h1 : (o.uid, o.packet) ∈ ops.map (fun op => (op.uid, op.packet)) := by
    rw [← changeStatsAll_packets st a b ops]; exact List.mem_map.2 ⟨o, ho, rfl⟩
  obtain ⟨o', ho', hx⟩ := List.mem_map.1 h1
  simp only [Prod.mk.injEq] at hx
  rcases h o' ho' with h | ⟨x, hx1, hx2, hx3⟩
  · exact .inl (by rw [← hx.2]; exact h)
  · exact .inr ⟨x, hx1, hx2.trans hx.1, by rw [hx3, hx.2]⟩

theorem from_queuePuback {before : List Op} {s : OpState} {id : Nat} (h : ∀ o ∈ s.held, From before o) :
    ∀ o ∈ (s.queuePuback id).held, From before o := by
  intro o ho
  obtain ⟨x, y, h1, h2, _⟩ := insertPuback_split (s.newOp (.puback { packetId := id })) s.queued
  simp only [OpState.held, OpState.queuePuback, h2] at ho
  simp only [OpState.held, h1] at h
  simp only [List.mem_append, List.mem_cons] at ho h
  rcases ho with (ho | rfl | ho) | ho
  · exact h o (.inl (.inl ho))
  · exact .inl rfl
  · exact h o (.inl (.inr ho))
  · exact h o (.inr ho)

theorem held_sameOps {s s1 : OpState} (h : SameOps s s1) : s1.held = s.held := by
  simp [OpState.held, h.queued, h.current, h.writing, h.unacked]

/-- For all moves but the setting up of an operation. -/
theorem move_from {cfg : Config} {c c' : Client} (m : Move cfg c c') :
    (c'.ops.nextId = c.ops.nextId ∧ ∀ op ∈ c'.ops.held, From c.ops.held op) ∨
    (∃ op rest s ok, c.ops.queued = op :: rest ∧ ({ c.ops with queued := rest } : OpState).setCurrent op = .ok (s, ok) ∧
      c.ops.current = none ∧ c' = ⟨s, c.ctl⟩) := by
  cases m with
  | control k hk => exact .inl ⟨rfl, fun _ => .mem⟩
  | accept p t hp hs hst =>
    refine .inl ⟨rfl, fun o ho => ?_⟩
    simp only [OpState.accept, OpState.held, List.append_assoc, List.mem_append, List.mem_singleton] at ho
    rcases ho with ho | rfl | ho
    · exact .mem (by simp [OpState.held, ho])
    · refine .inl ?_
      simp only [changeStats_packet, OpState.newOp, withPacketId_packetId]
      split <;> rfl
    · exact .mem (by simpa only [OpState.held, List.mem_append] using .inr ho)
  | reject p e hp => exact .inl ⟨rfl, fun _ => .mem⟩
  | push p hp hst =>
    refine .inl ⟨rfl, fun o ho => ?_⟩
    simp only [OpState.pushFront, OpState.held, List.cons_append, List.mem_cons] at ho
    rcases ho with rfl | ho
    · refine .inl ?_
      rcases hp with rfl | hp | hp
      · rfl
      · cases p <;> simp [isConnect] at hp; rfl
      · cases p <;> simp [isDisconnect] at hp; rfl
    · exact .mem ho
  | publish v a hst =>
    obtain ⟨s1, ctl, hs, hl, hx⟩ := onPublish_queue c.ops v a
    have h1 : ∀ o ∈ s1.held, From c.ops.held o := by rw [held_sameOps hs]; exact fun _ => .mem
    rcases hx with hx | hx
    · exact .inl ⟨by rw [hx]; exact hs.nextId, by rw [hx]; exact h1⟩
    · exact .inl ⟨by rw [hx]; exact hs.nextId, by rw [hx]; exact from_queuePuback h1⟩
  | invoke ctl hst =>
    rcases invoke_queue c.ops ctl with ⟨id, s1, _, hs, hl, _, _, _, hx⟩ | ⟨_, hs, hl, _⟩
    · have h1 : ∀ o ∈ s1.held, From c.ops.held o := by rw [held_sameOps hs]; exact fun _ => .mem
      exact .inl ⟨by rw [hx]; exact hs.nextId, by rw [hx]; exact from_queuePuback h1⟩
    · exact .inl ⟨hs.nextId, by rw [held_sameOps hs]; exact fun _ => .mem⟩
  | token id hst => exact .inl ⟨rfl, fun _ => .mem⟩
  | invalid op rest e hq he =>
    refine .inl ⟨rfl, fun o ho => .mem ?_⟩
    simp only [OpState.held, hq, List.cons_append]
    exact List.mem_cons_of_mem _ ho
  | start op rest s ok hq hc he hst hs => exact .inr ⟨op, rest, s, ok, hq, hs, hc, rfl⟩
  | encode op buf buf' enc r hc he => exact .inl ⟨rfl, fun _ => .mem⟩
  | finish op now s hc hsteps hs =>
    obtain ⟨_, ⟨hr, hid, rfl⟩ | ⟨hr, rfl⟩⟩ := finish_cases hs
    · refine .inl ⟨rfl, fun o ho => ?_⟩
      simp only [OpState.finishAck, OpState.held, List.mem_append, Option.mem_toList, List.mem_singleton] at ho
      rcases ho with ho | ho | ho | ho | rfl
      · exact .mem (by simp [OpState.held, ho])
      · cases ho
      · exact .mem (by simp [OpState.held, ho])
      · exact .mem (by simp [OpState.held, ho])
      · exact .inr ⟨op, by simp [OpState.held, hc], by simp, by simp⟩
    · refine .inl ⟨rfl, fun o ho => ?_⟩
      simp only [OpState.finishWrite, OpState.held, List.mem_append, Option.mem_toList, List.mem_singleton] at ho
      rcases ho with ho | ho | (ho | rfl) | ho
      · exact .mem (by simp [OpState.held, ho])
      · cases ho
      · exact .mem (by simp [OpState.held, ho])
      · exact .mem (by simp [OpState.held, hc])
      · exact .mem (by simp [OpState.held, ho])
  | write data => exact .inl ⟨rfl, fun _ => .mem⟩
  | pinged uid => exact .inl ⟨rfl, fun _ => .mem⟩
  | unwrite => exact .inl ⟨rfl, fun _ => .mem⟩
  | written e =>
    rw [completeAll_eq]
    refine .inl ⟨rfl, fun o ho => .mem ?_⟩
    simp only [OpState.held, List.mem_append] at ho ⊢
    rcases ho with ho | ho | ho | ho
    · exact .inl ho
    · exact .inr (.inl ho)
    · cases ho
    · exact .inr (.inr (.inr ho))
  | ack id uid op rest e a ht hu =>
    obtain ⟨x, y, h1, h2, _⟩ := takeUid_split hu
    refine .inl ⟨rfl, fun o ho => .mem ?_⟩
    simp only [OpState.complete, OpState.held, h1, h2, List.mem_append, List.mem_cons] at ho ⊢
    rcases ho with ho | ho | ho | ho | ho
    · exact .inl ho
    · exact .inr (.inl ho)
    · exact .inr (.inr (.inl ho))
    · exact .inr (.inr (.inr (.inl ho)))
    · exact .inr (.inr (.inr (.inr (.inr ho))))
  | timeout op rest hu ht =>
    obtain ⟨x, y, h1, h2, _⟩ := takeUid_split hu
    refine .inl ⟨rfl, fun o ho => .mem ?_⟩
    simp only [OpState.complete, OpState.held, h1, h2, List.mem_append, List.mem_cons] at ho ⊢
    rcases ho with ho | ho | ho | ho | ho
    · exact .inl ho
    · exact .inr (.inl ho)
    · exact .inr (.inr (.inl ho))
    · exact .inr (.inr (.inr (.inl ho)))
    · exact .inr (.inr (.inr (.inr (.inr ho))))
  | forget uid => exact .inl ⟨rfl, fun _ => .mem⟩
  | fresh hq => exact .inl ⟨rfl, fun _ => .mem⟩
  | disconnection e st hst =>
    refine .inl ⟨by simp, fun o ho => ?_⟩
    simp only [OpState.held, onDisconnection_queued, onDisconnection_current, onDisconnection_writing,
      onDisconnection_unacked, keep, keepUnacked, List.mem_append, List.mem_filter, List.mem_map,
      Option.toList_none, List.not_mem_nil, false_or] at ho
    rcases ho with ⟨ho | ho, _⟩ | ⟨⟨o', ho', rfl⟩, _⟩
    · exact .mem (by simpa [OpState.held] using .inr (.inl (by simpa using ho)))
    · exact .mem (by simp [OpState.held, ho])
    · have := markDisconnected_packetId o'
      split at this
      · exact .inr ⟨o', by simp [OpState.held, ho'], by simp, this.symm⟩
      · exact .inl this
  | connection settings now hst =>
    refine .inl ⟨by simp [Client.toConnected], fun o ho => ?_⟩
    simp only [Client.toConnected, OpState.held, List.mem_append, onConnection_current, onConnection_writing,
      onConnection_unacked, List.not_mem_nil, or_false] at ho
    rcases ho with ho | ho | ho
    · simp only [onConnection_queued] at ho
      refine from_changeStatsAll (fun o' ho' => ?_) o ho
      refine .mem ?_
      unfold requeued at ho'
      split at ho'
      · simp only [List.mem_append, List.mem_filter] at ho'
        simp only [OpState.held, List.mem_append]
        rcases ho' with ho' | ho' | ho'
        · exact .inr (.inr (.inr ho'.1))
        · exact .inr (.inr (.inr ho'.1))
        · exact .inl ho'
      · simp only [keep, List.mem_append, List.mem_filter] at ho'
        simp only [OpState.held, List.mem_append]
        rcases ho' with ho' | ho'
        · exact .inr (.inr (.inr ho'.1))
        · exact .inl ho'
    · exact .mem (by simpa [OpState.held] using .inr (.inl (by simpa using ho)))
    · exact .mem (by simp [OpState.held, ho])
  | reset hst =>
    refine .inl ⟨by simp [Client.toStopped], fun o ho => .mem ?_⟩
    simp only [Client.toStopped, OpState.held, resetAll_queued, resetAll_current, resetAll_writing,
      resetAll_unacked, List.nil_append, List.append_nil] at ho
    simpa [OpState.held] using .inr (.inl (by simpa using ho))
  | terminate hst hd =>
    refine .inl ⟨by simp [Client.toTerminated], fun o ho => .mem ?_⟩
    simp only [Client.toTerminated, OpState.held, resetAll_queued, resetAll_current, resetAll_writing,
      resetAll_unacked, List.nil_append, List.append_nil] at ho
    simpa [OpState.held] using .inr (.inl (by simpa using ho))

/-! ### The invariant -/

/-- Packet ids were handed out in increasing order so far. -/
structure IdInv (c : Client) : Prop where
  small : ∀ op ∈ c.ops.held, packetId op.packet < c.ops.nextId
  count : c.ops.nextId ≤ setUps c.ops.log + 1
  apart : ∀ a ∈ c.ops.held, ∀ b ∈ c.ops.held, packetId a.packet ≠ 0 →
    packetId a.packet = packetId b.packet → a.uid = b.uid

theorem id_new (cfg : Config) : IdInv (Client.new cfg) := by
  constructor <;> simp [Client.new, OpState.held]

theorem IdInv.shrink {c c' : Client} (h : IdInv c) (hv : LiveInv c) (hn : c'.ops.nextId = c.ops.nextId)
    (hl : setUps c.ops.log ≤ setUps c'.ops.log) (hsub : ∀ op ∈ c'.ops.held, From c.ops.held op) : IdInv c' := by
  constructor
  · intro op ho
    rw [hn]
    rcases hsub op ho with h0 | ⟨o, ho, _, ho2⟩
    · rw [h0]; exact hv.next.1
    · rw [← ho2]; exact h.small o ho
  · rw [hn]; have := h.count; omega
  · intro a ha b hb hz hab
    rcases hsub a ha with h0 | ⟨a', ha', ha1, ha2⟩
    · exact absurd h0 hz
    · rcases hsub b hb with h0 | ⟨b', hb', hb1, hb2⟩
      · exact absurd (hab.trans h0) hz
      · rw [← ha1, ← hb1]
        exact h.apart a' ha' b' hb' (by rw [ha2]; exact hz) (by rw [ha2, hb2]; exact hab)

theorem findId_first {t : AMap Nat Nat} {n : Nat} (fuel : Nat) (h : t.get n = none) :
    findId t (fuel + 1) n = some n := by
  rw [findId]; simp [h]

/-- Setting up an operation when the next packet id is free. -/
theorem setCurrent_next {s s' : OpState} {op : Op} {ok : Bool} (h : s.setCurrent op = .ok (s', ok))
    (hfree : s.table.get s.nextId = none) :
    ∃ op' e, op'.uid = op.uid ∧ (op' = op ∧ s'.nextId = s.nextId ∨
        needsId op.packet = true ∧ op' = { op with packet := withPacketId op.packet s.nextId } ∧
          s'.nextId = nextPacketId s.nextId) ∧
      s'.log = s.log ++ [e] ∧ isSetUp e = requiresAck op.packet ∧ s'.queued = s.queued ∧ s'.writing = s.writing ∧
      s'.unacked = s.unacked ∧ (s'.current = s.current ∨ s'.current = some op') := by
  unfold OpState.setCurrent at h
  have hb : s.bind op = some (s, op) ∧ needsId op.packet = false ∨
      s.bind op = some ({ s with nextId := nextPacketId s.nextId },
        { op with packet := withPacketId op.packet s.nextId }) ∧ needsId op.packet = true := by
    unfold OpState.bind
    split
    · rename_i hn; exact .inl ⟨rfl, by simpa using hn⟩
    · rename_i hn
      have : findId s.table u16max s.nextId = some s.nextId := findId_first 65534 hfree
      rw [this]
      exact .inr ⟨rfl, by simpa using hn⟩
  rcases hb with ⟨hb, hn⟩ | ⟨hb, hn⟩
  · rw [hb] at h
    simp only at h
    split at h
    · cases h
    · cases h
      exact ⟨op, _, rfl, .inl ⟨rfl, rfl⟩, rfl, rfl, rfl, rfl, rfl, .inl rfl⟩
    · cases h
      exact ⟨op, _, rfl, .inl ⟨rfl, rfl⟩, rfl, rfl, rfl, rfl, rfl, .inr rfl⟩
  · rw [hb] at h
    simp only at h
    split at h
    · cases h
    · cases h
      exact ⟨{ op with packet := withPacketId op.packet s.nextId }, _, rfl, .inr ⟨hn, rfl, rfl⟩, rfl, by simp [isSetUp], rfl, rfl, rfl, .inl rfl⟩
    · cases h
      exact ⟨{ op with packet := withPacketId op.packet s.nextId }, _, rfl, .inr ⟨hn, rfl, rfl⟩, rfl, by simp [isSetUp], rfl, rfl, rfl, .inr rfl⟩

theorem id_move {cfg : Config} {c c' : Client} (hi : Inv c) (h : IdInv c) (m : Move cfg c c')
    (hb : setUps c'.ops.log ≤ 65534) : IdInv c' := by
  obtain ⟨new, hlog, _⟩ := move_log m
  have hmono : setUps c.ops.log ≤ setUps c'.ops.log := by rw [hlog, setUps_append]; omega
  rcases move_from m with ⟨h1, h2⟩ | ⟨op, rest, s, ok, hq, hs, hc, rfl⟩
  · exact h.shrink hi.live h1 hmono h2
  · have hfree : ({ c.ops with queued := rest } : OpState).table.get ({ c.ops with queued := rest } : OpState).nextId
        = none := by
      show c.ops.table.get c.ops.nextId = none
      cases ht : c.ops.table.get c.ops.nextId with
      | none => rfl
      | some uid =>
        obtain ⟨o, ho, _, ho2⟩ := hi.live.tab _ _ ht
        have := h.small o (by simp [OpState.held, ho])
        omega
    obtain ⟨op', e, hu, hcase, hl, he, hq', hw, hun, hcur⟩ := setCurrent_next hs hfree
    have hcur' : s.current = none ∨ s.current = some op' := by
      rcases hcur with h | h
      · exact .inl (h.trans hc)
      · exact .inr h
    have hop : op ∈ c.ops.held := by simp [OpState.held, hq]
    have hheld : ∀ o ∈ s.held, o = op' ∨ o ∈ c.ops.held ∧ o.uid ≠ op.uid := by
      intro o ho
      simp only [OpState.held, hq', hw, hun, List.mem_append, Option.mem_toList] at ho
      have hne : ∀ x ∈ rest ++ (c.ops.writing ++ c.ops.unacked), x.uid ≠ op.uid := by
        intro x hx hxo
        have := hi.held.once op.uid
        simp only [places, OpState.held, hq, hc, List.cons_append, List.map_cons, List.count_cons,
          beq_self_eq_true, if_true, Option.toList_none, List.nil_append] at this
        have h0 := List.count_pos_iff.2 (List.mem_map.2 ⟨x, hx, hxo⟩ :
          op.uid ∈ (rest ++ (c.ops.writing ++ c.ops.unacked)).map (·.uid))
        have hb : born c.ops.nextUid op.uid ≤ 1 := by unfold born; split <;> omega
        omega
      have hcases : o = op' ∨ o ∈ rest ++ (c.ops.writing ++ c.ops.unacked) := by
        rcases ho with ho | ho | ho | ho
        · exact .inr (List.mem_append_left _ ho)
        · rcases hcur' with hx | hx
          · rw [hx] at ho; cases ho
          · rw [hx] at ho; cases ho; exact .inl rfl
        · exact .inr (List.mem_append_right _ (List.mem_append_left _ ho))
        · exact .inr (List.mem_append_right _ (List.mem_append_right _ ho))
      rcases hcases with hx | hx
      · exact .inl hx
      · refine .inr ⟨?_, hne o hx⟩
        simp only [OpState.held, hq, hc, Option.toList_none, List.nil_append, List.cons_append]
        exact List.mem_cons_of_mem _ hx
    rcases hcase with ⟨rfl, hn⟩ | ⟨hneed, hop', hn⟩
    · refine h.shrink hi.live hn hmono fun o ho => .mem ?_
      rcases hheld o ho with rfl | ho
      · exact hop
      · exact ho.1
    · have hr : requiresAck op.packet = true := by simp [needsId] at hneed; exact hneed.1
      have hlog' : s.log = c.ops.log ++ [e] := hl
      have hone : setUps [e] = 1 := by simp [setUps, he, hr]
      have hb' : setUps c.ops.log ≤ 65533 := by
        rw [hlog', setUps_append, hone] at hb; omega
      have hcount := h.count
      have hnext : s.nextId = c.ops.nextId + 1 := by
        rw [hn]
        show nextPacketId c.ops.nextId = _
        unfold nextPacketId
        rw [if_neg (by omega)]
      have hid : packetId op'.packet = c.ops.nextId := by
        rw [hop']
        show packetId (withPacketId op.packet c.ops.nextId) = _
        rw [withPacketId_packetId, requiresAck_user hr]
        simp
      constructor
      · intro o ho
        show _ < s.nextId
        rw [hnext]
        rcases hheld o ho with rfl | ⟨ho, _⟩
        · omega
        · have := h.small o ho; omega
      · show s.nextId ≤ setUps s.log + 1
        rw [hnext, hlog', setUps_append, hone]
        omega
      · intro a ha b hb hz hab
        rcases hheld a ha with rfl | ⟨ha, _⟩ <;> rcases hheld b hb with rfl | ⟨hb, _⟩
        · rfl
        · have := h.small b hb; omega
        · have := h.small a ha; omega
        · exact h.apart a ha b hb hz hab

theorem reachable_ids {cfg : Config} {c : Client} (h : Reachable cfg c) :
    Inv c ∧ (setUps c.ops.log ≤ 65534 → IdInv c) := by
  refine reachable_inv (P := fun c => Inv c ∧ (setUps c.ops.log ≤ 65534 → IdInv c))
    ⟨⟨held_new cfg, live_new cfg, track_new cfg⟩, fun _ => id_new cfg⟩ ?_ h
  intro c c' ⟨hi, hid⟩ m
  refine ⟨⟨held_move hi.held m, live_move hi.held hi.live m, track_move hi.held hi.live hi.track m⟩, fun hb => ?_⟩
  obtain ⟨new, hlog, _⟩ := move_log m
  refine id_move hi (hid ?_) m hb
  rw [hlog, setUps_append] at hb
  omega

end Mqtt.Client5
