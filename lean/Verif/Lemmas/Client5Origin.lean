import Verif.Lemmas.Client5Ids

/-!
The packets the MQTT 5 client holds and sends are those the user submitted, up to packet id and DUP.
-/
namespace Mqtt.Client5

open Mqtt.V5

/-- A packet without packet id and DUP. -/
def plainPacket : Outgoing → Outgoing
  | .publish v => .publish { v with packetId := 0, duplicate := false }
  | p => withPacketId p 0

@[simp] theorem plain_withPacketId (p : Outgoing) (id : Nat) : plainPacket (withPacketId p id) = plainPacket p := by
  cases p <;> rfl
@[simp] theorem plain_isUser (p : Outgoing) : isUser (plainPacket p) = isUser p := by cases p <;> rfl
@[simp] theorem plain_isQos1 (p : Outgoing) : isQos1 (plainPacket p) = isQos1 p := by cases p <;> rfl
@[simp] theorem plain_requiresAck (p : Outgoing) : requiresAck (plainPacket p) = requiresAck p := by cases p <;> rfl
@[simp] theorem plain_mark (op : Op) : plainPacket (markDisconnected op).packet = plainPacket op.packet := by
  unfold markDisconnected
  split
  · rename_i v h
    split
    · rw [h]; rfl
    · simp
  · simp

theorem isUser_congr {p q : Outgoing} (h : plainPacket p = plainPacket q) : isUser p = isUser q := by
  rw [← plain_isUser p, h, plain_isUser]
theorem isQos1_congr {p q : Outgoing} (h : plainPacket p = plainPacket q) : isQos1 p = isQos1 q := by
  rw [← plain_isQos1 p, h, plain_isQos1]

theorem submittable_id {p : Outgoing} (h : Enabled.Submittable p) : packetId p = 0 ∧ withPacketId p 0 = p := by
  cases p <;> simp only [Enabled.Submittable] at h
  all_goals
    obtain ⟨u, h⟩ := h
    simp only [newPublish, newSubscribe, newUnsubscribe] at h
    split at h
    · cases h
    · split at h
      · cases h
      · rename_i hid
        cases h
        have hid : _ = 0 := Classical.not_not.1 hid
        refine ⟨hid, ?_⟩
        simp only [withPacketId, ← hid]

/-- Where an operation held after a move comes from. -/
def Born (cfg : Config) (c c' : Client) (op : Op) : Prop :=
  (∃ o ∈ c.ops.held, o.uid = op.uid ∧ plainPacket o.packet = plainPacket op.packet) ∨
  (op.uid = c.ops.nextUid ∧ ((isUser op.packet = false ∧ (isConnect op.packet = true → Made cfg c op.packet)) ∨
    (Enabled.Submittable op.packet ∧ .submitted op.uid op.packet ∈ c'.ops.log)))

theorem Born.mem {cfg : Config} {c c' : Client} {op : Op} (h : op ∈ c.ops.held) : Born cfg c c' op := .inl ⟨op, h, rfl, rfl⟩

theorem born_changeStatsAll {cfg : Config} {c c' : Client} {ops : List Op} {st : Stats} {a b : Bool} (h : ∀ o ∈ ops, Born cfg c c' o) :
    ∀ o ∈ (changeStatsAll st a b ops).2, Born cfg c c' o := by
  intro o ho
  have h1 : (o.uid, o.packet) ∈ ops.map (fun op => (op.uid, op.packet)) := by
    rw [← changeStatsAll_packets st a b ops]; exact List.mem_map.2 ⟨o, ho, rfl⟩
  obtain ⟨o', ho', hx⟩ := List.mem_map.1 h1
  simp only [Prod.mk.injEq] at hx
  have := h o' ho'
  unfold Born at this ⊢
  rwa [hx.1, hx.2] at this

theorem born_queuePuback {cfg : Config} {c c' : Client} {s : OpState} {id : Nat} (hn : s.nextUid = c.ops.nextUid)
    (h : ∀ o ∈ s.held, Born cfg c c' o) : ∀ o ∈ (s.queuePuback id).held, Born cfg c c' o := by
  intro o ho
  obtain ⟨x, y, h1, h2, _⟩ := insertPuback_split (s.newOp (.puback { packetId := id })) s.queued
  simp only [OpState.held, OpState.queuePuback, h2] at ho
  simp only [OpState.held, h1] at h
  simp only [List.mem_append, List.mem_cons] at ho h
  rcases ho with (ho | rfl | ho) | ho
  · exact h o (.inl (.inl ho))
  · exact .inr ⟨hn, .inl ⟨rfl, fun h => by cases h⟩⟩
  · exact h o (.inl (.inr ho))
  · exact h o (.inr ho)

theorem move_born {cfg : Config} {c c' : Client} (m : Move cfg c c') : ∀ op ∈ c'.ops.held, Born cfg c c' op := by
  cases m with
  | control k hk => exact fun o ho => Born.mem (cfg := cfg) (c := c) (op := o) ho
  | accept p t hp hs hst =>
    intro o ho
    simp only [OpState.accept, OpState.held, List.append_assoc, List.mem_append, List.mem_singleton] at ho
    rcases ho with ho | rfl | ho
    · exact .mem (by simp [OpState.held, ho])
    · have hx := (submittable_id hs).2
      refine .inr ⟨by simp [OpState.newOp], .inr ⟨?_, ?_⟩⟩
      · simpa [OpState.newOp, hx] using hs
      · simp [OpState.newOp, OpState.accept]
    · exact .mem (by simpa only [OpState.held, List.mem_append] using .inr ho)
  | reject p e hp => exact fun o ho => Born.mem (cfg := cfg) (c := c) (op := o) ho
  | push p hp hst hm =>
    intro o ho
    simp only [OpState.pushFront, OpState.held, List.cons_append, List.mem_cons] at ho
    rcases ho with rfl | ho
    · refine .inr ⟨rfl, .inl ⟨?_, ?_⟩⟩
      · rcases hp with rfl | hp | hp
        · rfl
        · cases p <;> simp [isConnect] at hp; rfl
        · cases p <;> simp [isDisconnect] at hp; rfl
      · cases p <;> simp only [isConnect] at hm <;> simp only [OpState.newOp, isConnect]
        · exact hm
        all_goals exact fun h => by cases h
    · exact .mem ho
  | publish v a hst =>
    obtain ⟨s1, ctl, hs, hl, hx⟩ := onPublish_queue c.ops v a
    have h1 : ∀ c', ∀ o ∈ s1.held, Born cfg c c' o := by rw [held_sameOps hs]; exact fun _ _ => .mem
    rcases hx with hx | hx
    · rw [hx]; exact h1 _
    · rw [hx]; exact born_queuePuback hs.nextUid (h1 _)
  | invoke ctl hst =>
    rcases invoke_queue c.ops ctl with ⟨id, s1, _, hs, hl, _, _, _, hx⟩ | ⟨_, hs, hl, _⟩
    · have h1 : ∀ c', ∀ o ∈ s1.held, Born cfg c c' o := by rw [held_sameOps hs]; exact fun _ _ => .mem
      rw [hx]; exact born_queuePuback hs.nextUid (h1 _)
    · rw [held_sameOps hs]; exact fun _ => .mem
  | token id hst => exact fun _ => .mem
  | invalid op rest e hq he =>
    refine fun o ho => .mem ?_
    simp only [OpState.held, hq, List.cons_append]
    exact List.mem_cons_of_mem _ ho
  | start op rest s ok hq hc he hst hs =>
    intro o ho
    rcases setCurrent_cases hs with ⟨_, p, n, enc, rfl, _⟩ | ⟨_, op', n, enc, rfl, hb, _⟩
    · refine .mem ?_
      simp only [OpState.held, hq, List.cons_append]
      exact List.mem_cons_of_mem _ ho
    · simp only [OpState.held, Option.toList_some, List.mem_append, List.mem_singleton] at ho
      rcases ho with ho | rfl | ho | ho
      · exact .mem (by simp [OpState.held, hq, ho])
      · refine .inl ⟨op, by simp [OpState.held, hq], (bind_uid hb).symm, ?_⟩
        rcases bind_cases hb with ⟨_, _, rfl⟩ | ⟨_, id, _, _, rfl⟩
        · rfl
        · simp
      · exact .mem (by simp [OpState.held, ho])
      · exact .mem (by simp [OpState.held, ho])
  | encode op buf buf' enc r hc he => exact fun _ => .mem
  | finish op now s hc hsteps hs =>
    obtain ⟨_, ⟨hr, hid, rfl⟩ | ⟨hr, rfl⟩⟩ := finish_cases hs
    · intro o ho
      simp only [OpState.finishAck, OpState.held, List.mem_append, Option.mem_toList, List.mem_singleton] at ho
      rcases ho with ho | ho | ho | ho | rfl
      · exact .mem (by simp [OpState.held, ho])
      · cases ho
      · exact .mem (by simp [OpState.held, ho])
      · exact .mem (by simp [OpState.held, ho])
      · exact .inl ⟨op, by simp [OpState.held, hc], by simp, by simp⟩
    · intro o ho
      simp only [OpState.finishWrite, OpState.held, List.mem_append, Option.mem_toList, List.mem_singleton] at ho
      rcases ho with ho | ho | (ho | rfl) | ho
      · exact .mem (by simp [OpState.held, ho])
      · cases ho
      · exact .mem (by simp [OpState.held, ho])
      · exact .mem (by simp [OpState.held, hc])
      · exact .mem (by simp [OpState.held, ho])
  | write data => exact fun _ => .mem
  | pinged uid => exact fun _ => .mem
  | unwrite => exact fun _ => .mem
  | written e =>
    rw [completeAll_eq]
    refine fun o ho => .mem ?_
    simp only [OpState.held, List.mem_append] at ho ⊢
    rcases ho with ho | ho | ho | ho
    · exact .inl ho
    · exact .inr (.inl ho)
    · cases ho
    · exact .inr (.inr (.inr ho))
  | ack id uid op rest e a ht hu =>
    obtain ⟨x, y, h1, h2, _⟩ := takeUid_split hu
    refine fun o ho => .mem ?_
    simp only [OpState.complete, OpState.held, h1, h2, List.mem_append, List.mem_cons] at ho ⊢
    rcases ho with ho | ho | ho | ho | ho
    · exact .inl ho
    · exact .inr (.inl ho)
    · exact .inr (.inr (.inl ho))
    · exact .inr (.inr (.inr (.inl ho)))
    · exact .inr (.inr (.inr (.inr (.inr ho))))
  | timeout op rest hu ht =>
    obtain ⟨x, y, h1, h2, _⟩ := takeUid_split hu
    refine fun o ho => .mem ?_
    simp only [OpState.complete, OpState.held, h1, h2, List.mem_append, List.mem_cons] at ho ⊢
    rcases ho with ho | ho | ho | ho | ho
    · exact .inl ho
    · exact .inr (.inl ho)
    · exact .inr (.inr (.inl ho))
    · exact .inr (.inr (.inr (.inl ho)))
    · exact .inr (.inr (.inr (.inr (.inr ho))))
  | forget uid => exact fun _ => .mem
  | fresh hq => exact fun _ => .mem
  | disconnection e st hst =>
    intro o ho
    simp only [OpState.held, onDisconnection_queued, onDisconnection_current, onDisconnection_writing,
      onDisconnection_unacked, keep, keepUnacked, List.mem_append, List.mem_filter, List.mem_map,
      Option.toList_none, List.not_mem_nil, false_or] at ho
    rcases ho with ⟨ho | ho, _⟩ | ⟨⟨o', ho', rfl⟩, _⟩
    · exact .mem (by simpa [OpState.held] using .inr (.inl (by simpa using ho)))
    · exact .mem (by simp [OpState.held, ho])
    · exact .inl ⟨o', by simp [OpState.held, ho'], by simp, by simp⟩
  | connection settings now hst =>
    intro o ho
    simp only [Client.toConnected, OpState.held, List.mem_append, onConnection_current, onConnection_writing,
      onConnection_unacked, List.not_mem_nil, or_false] at ho
    rcases ho with ho | ho | ho
    · simp only [onConnection_queued] at ho
      refine born_changeStatsAll (fun o' ho' => ?_) o ho
      refine .mem ?_
      unfold requeued at ho'
      split at ho'
      · simp only [List.mem_append, List.mem_filter] at ho'
        simp only [OpState.held, List.mem_append]
        rcases ho' with ho' | ho' | ho'
        · exact .inr (.inr (.inr ho'.1))
        · exact .inr (.inr (.inr ho'.1))
        · exact .inl ho'
      · simp only [keep, List.mem_append, List.mem_filter] at ho'
        simp only [OpState.held, List.mem_append]
        rcases ho' with ho' | ho'
        · exact .inr (.inr (.inr ho'.1))
        · exact .inl ho'
    · exact .mem (by simpa [OpState.held] using .inr (.inl (by simpa using ho)))
    · exact .mem (by simp [OpState.held, ho])
  | reset hst =>
    refine fun o ho => .mem ?_
    simp only [Client.toStopped, OpState.held, resetAll_queued, resetAll_current, resetAll_writing,
      resetAll_unacked, List.nil_append, List.append_nil] at ho
    simpa [OpState.held] using .inr (.inl (by simpa using ho))
  | terminate hst hd =>
    refine fun o ho => .mem ?_
    simp only [Client.toTerminated, OpState.held, resetAll_queued, resetAll_current, resetAll_writing,
      resetAll_unacked, List.nil_append, List.append_nil] at ho
    simpa [OpState.held] using .inr (.inl (by simpa using ho))

/-- A packet is what the user submitted under this number, or the client's own. -/
def Origin (log : List Effect) (u : Nat) (p : Outgoing) : Prop :=
  isUser p = true → ∃ q, .submitted u q ∈ log ∧ Enabled.Submittable q ∧ plainPacket q = plainPacket p

theorem Origin.mono {log new : List Effect} {u : Nat} {p : Outgoing} (h : Origin log u p) : Origin (log ++ new) u p := by
  intro hu
  obtain ⟨q, h1, h2, h3⟩ := h hu
  exact ⟨q, List.mem_append_left _ h1, h2, h3⟩

def OriginInv (c : Client) : Prop := ∀ op ∈ c.ops.held, Origin c.ops.log op.uid op.packet

theorem origin_new (cfg : Config) : OriginInv (Client.new cfg) := by
  intro op ho
  simp [Client.new, OpState.held] at ho

theorem origin_move {cfg : Config} {c c' : Client} (h : OriginInv c) (m : Move cfg c c') : OriginInv c' := by
  obtain ⟨new, hl, _⟩ := move_log m
  intro op ho
  rcases move_born m op ho with ⟨o, h1, h2, h3⟩ | ⟨h1, h2 | h2⟩
  · intro hu
    obtain ⟨q, hq1, hq2, hq3⟩ := h o h1 (isUser_congr h3 ▸ hu)
    rw [hl]
    exact ⟨q, List.mem_append_left _ (h2 ▸ hq1), hq2, hq3.trans h3⟩
  · intro hu; rw [h2.1] at hu; cases hu
  · intro _; exact ⟨op.packet, h2.2, h2.1, rfl⟩

theorem reachable_origin {cfg : Config} {c : Client} (h : Reachable cfg c) : OriginInv c :=
  reachable_inv (P := OriginInv) (origin_new cfg) (fun _ _ => origin_move) h

end Mqtt.Client5
