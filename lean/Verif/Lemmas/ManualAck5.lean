import Verif.Lemmas.Client5Manual
import Verif.Lemmas.Client5Ack
import Verif.Lemmas.Client5Life
import Verif.Lemmas.Client5Soft
import Verif.Spec.ManualAck5

/-!
PUBACK operations of manual acknowledgements from being queued to being completed, the tables of controls, and the
completion callbacks of invocations.
-/
namespace Mqtt.Client5

open Mqtt.V5

/-! ## The packet of a PUBACK operation stays the same -/

/-- Where an operation held after a move has its packet from. -/
def Pack (c c' : Client) (op : Op) : Prop :=
  (∃ o ∈ c.ops.held, o.uid = op.uid ∧ ∀ v, o.packet = .puback v → op.packet = .puback v) ∨
  (op.uid = c.ops.nextUid ∧ ∀ id, .pubackQueued c.ops.nextUid id ∈ c'.ops.log → op.packet = .puback { packetId := id })

theorem Pack.mem {c c' : Client} {op : Op} (h : op ∈ c.ops.held) : Pack c c' op := .inl ⟨op, h, rfl, fun _ => id⟩

theorem markDisconnected_puback (op : Op) {v : PubackView} (h : op.packet = .puback v) :
    (markDisconnected op).packet = .puback v := by
  simp [markDisconnected, h, withPacketId]

theorem pack_changeStatsAll {c c' : Client} {ops : List Op} {st : Stats} {a b : Bool} (h : ∀ o ∈ ops, Pack c c' o) :
    ∀ o ∈ (changeStatsAll st a b ops).2, Pack c c' o := by
  intro o ho
  have h1 : (o.uid, o.packet) ∈ ops.map (fun op => (op.uid, op.packet)) := by
    rw [← changeStatsAll_packets]
    exact List.mem_map.2 ⟨o, ho, rfl⟩
  obtain ⟨o', ho', hx⟩ := List.mem_map.1 h1
  simp only [Prod.mk.injEq] at hx
  have := h o' ho'
  unfold Pack at this ⊢
  rwa [hx.1, hx.2] at this

theorem pack_queuePuback {c : Client} {k : Control} {s : OpState} {id : Nat}
    (hn : ∀ i, Effect.pubackQueued c.ops.nextUid i ∉ s.log) (hs : s.nextUid = c.ops.nextUid)
    (h : ∀ o ∈ s.held, Pack c ⟨s.queuePuback id, k⟩ o) : ∀ o ∈ (s.queuePuback id).held, Pack c ⟨s.queuePuback id, k⟩ o := by
  intro o ho
  obtain ⟨x, y, h1, h2, _⟩ := insertPuback_split (s.newOp (.puback { packetId := id })) s.queued
  simp only [OpState.held, OpState.queuePuback, h2] at ho
  simp only [OpState.held, h1] at h
  simp only [List.mem_append, List.mem_cons] at ho h
  rcases ho with (ho | rfl | ho) | ho
  · exact h o (.inl (.inl ho))
  · refine .inr ⟨hs, fun i hi => ?_⟩
    simp only [OpState.queuePuback, List.mem_append, List.mem_singleton, Effect.pubackQueued.injEq] at hi
    rcases hi with hi | ⟨_, rfl⟩
    · exact absurd hi (hn i)
    · rfl
  · exact h o (.inl (.inr ho))
  · exact h o (.inr ho)

theorem move_pack {cfg : Config} {c c' : Client} (hp : PubackInv c) (m : Move cfg c c') : ∀ op ∈ c'.ops.held, Pack c c' op := by
  have hnew : ∀ id, Effect.pubackQueued c.ops.nextUid id ∉ c.ops.log := fun id hm => by have := hp.bound _ _ hm; omega
  cases m with
  | control k hk => exact fun o ho => Pack.mem (c := c) (op := o) ho
  | accept p t hq hs hst hg =>
    intro o ho
    simp only [OpState.accept, OpState.held, List.append_assoc, List.mem_append, List.mem_singleton] at ho
    rcases ho with ho | rfl | ho
    · exact .mem (by simp [OpState.held, ho])
    · refine .inr ⟨by rw [changeStats_uid]; rfl, fun id hm => absurd hm ?_⟩
      simp [OpState.accept, hnew]
    · exact .mem (by simpa only [OpState.held, List.mem_append] using .inr ho)
  | reject p e hq => exact fun o ho => Pack.mem (c := c) (op := o) ho
  | push p hq hst =>
    intro o ho
    simp only [OpState.pushFront, OpState.held, List.cons_append, List.mem_cons] at ho
    rcases ho with rfl | ho
    · exact .inr ⟨rfl, fun id hm => absurd hm (hnew id)⟩
    · exact .mem ho
  | publish v a hst =>
    obtain ⟨s1, ctl, hs, hl, hx⟩ := onPublish_queue c.ops v a
    have h1 : ∀ c', ∀ o ∈ s1.held, Pack c c' o := by rw [held_sameOps hs]; exact fun _ _ => .mem
    rcases hx with hx | hx
    · rw [hx]; exact h1 _
    · rw [hx]; exact pack_queuePuback (by simp [hl, hnew]) hs.nextUid (h1 _)
  | invoke ctl hst =>
    rcases invoke_queue c.ops ctl with ⟨id, s1, _, hs, hl, _, _, _, hx⟩ | ⟨_, hs, hl, _⟩
    · have h1 : ∀ c', ∀ o ∈ s1.held, Pack c c' o := by rw [held_sameOps hs]; exact fun _ _ => .mem
      rw [hx]; exact pack_queuePuback (by simp [hl, hnew]) hs.nextUid (h1 _)
    · rw [held_sameOps hs]; exact fun o ho => Pack.mem (c := c) (op := o) ho
  | token id hst => exact fun o ho => Pack.mem (c := c) (op := o) ho
  | invalid op rest e hq he =>
    refine fun o ho => .mem ?_
    simp only [OpState.held, hq, List.cons_append]
    exact List.mem_cons_of_mem _ ho
  | start op rest s ok hq hc he hst hs =>
    intro o ho
    rcases setCurrent_cases hs with ⟨_, p, n, enc, rfl, _⟩ | ⟨_, op', n, enc, rfl, hb, _⟩
    · refine .mem ?_
      simp only [OpState.held, hq, List.cons_append]
      exact List.mem_cons_of_mem _ ho
    · simp only [OpState.held, Option.toList_some, List.mem_append, List.mem_singleton] at ho
      rcases ho with ho | rfl | ho | ho
      · exact .mem (by simp [OpState.held, hq, ho])
      · refine .inl ⟨op, by simp [OpState.held, hq], (bind_uid hb).symm, fun v hv => ?_⟩
        rcases bind_cases hb with ⟨_, _, rfl⟩ | ⟨_, id, _, _, rfl⟩
        · exact hv
        · simp [hv, withPacketId]
      · exact .mem (by simp [OpState.held, ho])
      · exact .mem (by simp [OpState.held, ho])
  | encode op buf buf' enc r hc he => exact fun o ho => Pack.mem (c := c) (op := o) ho
  | finish op now s hc hsteps hs =>
    obtain ⟨_, ⟨hr, hid, rfl⟩ | ⟨hr, rfl⟩⟩ := finish_cases hs
    · intro o ho
      simp only [OpState.finishAck, OpState.held, List.mem_append, Option.mem_toList, List.mem_singleton] at ho
      rcases ho with ho | ho | ho | ho | rfl
      · exact .mem (by simp [OpState.held, ho])
      · cases ho
      · exact .mem (by simp [OpState.held, ho])
      · exact .mem (by simp [OpState.held, ho])
      · exact .inl ⟨op, by simp [OpState.held, hc], by simp, fun v hv => by simpa using hv⟩
    · intro o ho
      simp only [OpState.finishWrite, OpState.held, List.mem_append, Option.mem_toList, List.mem_singleton] at ho
      rcases ho with ho | ho | (ho | rfl) | ho
      · exact .mem (by simp [OpState.held, ho])
      · cases ho
      · exact .mem (by simp [OpState.held, ho])
      · exact .mem (by simp [OpState.held, hc])
      · exact .mem (by simp [OpState.held, ho])
  | write data => exact fun o ho => Pack.mem (c := c) (op := o) ho
  | pinged uid => exact fun o ho => Pack.mem (c := c) (op := o) ho
  | unwrite => exact fun o ho => Pack.mem (c := c) (op := o) ho
  | written e =>
    rw [completeAll_eq]
    refine fun o ho => .mem ?_
    simp only [OpState.held, List.mem_append] at ho ⊢
    rcases ho with ho | ho | ho | ho
    · exact .inl ho
    · exact .inr (.inl ho)
    · cases ho
    · exact .inr (.inr (.inr ho))
  | ack id uid op rest e a ht hu =>
    obtain ⟨x, y, h1, h2, _⟩ := takeUid_split hu
    refine fun o ho => .mem ?_
    simp only [OpState.complete, OpState.held, h1, h2, List.mem_append, List.mem_cons] at ho ⊢
    rcases ho with ho | ho | ho | ho | ho
    · exact .inl ho
    · exact .inr (.inl ho)
    · exact .inr (.inr (.inl ho))
    · exact .inr (.inr (.inr (.inl ho)))
    · exact .inr (.inr (.inr (.inr (.inr ho))))
  | timeout op rest hu ht =>
    obtain ⟨x, y, h1, h2, _⟩ := takeUid_split hu
    refine fun o ho => .mem ?_
    simp only [OpState.complete, OpState.held, h1, h2, List.mem_append, List.mem_cons] at ho ⊢
    rcases ho with ho | ho | ho | ho | ho
    · exact .inl ho
    · exact .inr (.inl ho)
    · exact .inr (.inr (.inl ho))
    · exact .inr (.inr (.inr (.inl ho)))
    · exact .inr (.inr (.inr (.inr (.inr ho))))
  | forget uid => exact fun o ho => Pack.mem (c := c) (op := o) ho
  | fresh hq => exact fun o ho => Pack.mem (c := c) (op := o) ho
  | disconnection e st hst =>
    intro o ho
    simp only [OpState.held, onDisconnection_queued, onDisconnection_current, onDisconnection_writing,
      onDisconnection_unacked, keep, keepUnacked, List.mem_append, List.mem_filter, List.mem_map,
      Option.toList_none, List.not_mem_nil, false_or] at ho
    rcases ho with ⟨ho | ho, _⟩ | ⟨⟨o', ho', rfl⟩, _⟩
    · exact .mem (by simpa [OpState.held] using .inr (.inl (by simpa using ho)))
    · exact .mem (by simp [OpState.held, ho])
    · exact .inl ⟨o', by simp [OpState.held, ho'], by simp, fun v hv => markDisconnected_puback _ hv⟩
  | connection settings now hst =>
    intro o ho
    simp only [Client.toConnected, OpState.held, List.mem_append, onConnection_current, onConnection_writing,
      onConnection_unacked, List.not_mem_nil, or_false] at ho
    rcases ho with ho | ho | ho
    · simp only [onConnection_queued] at ho
      refine pack_changeStatsAll (fun o' ho' => ?_) o ho
      refine .mem ?_
      unfold requeued at ho'
      split at ho'
      · simp only [List.mem_append, List.mem_filter] at ho'
        simp only [OpState.held, List.mem_append]
        rcases ho' with ho' | ho' | ho'
        · exact .inr (.inr (.inr ho'.1))
        · exact .inr (.inr (.inr ho'.1))
        · exact .inl ho'
      · simp only [keep, List.mem_append, List.mem_filter] at ho'
        simp only [OpState.held, List.mem_append]
        rcases ho' with ho' | ho'
        · exact .inr (.inr (.inr ho'.1))
        · exact .inl ho'
    · exact .mem (by simpa [OpState.held] using .inr (.inl (by simpa using ho)))
    · exact .mem (by simp [OpState.held, ho])
  | reset hst =>
    refine fun o ho => .mem ?_
    simp only [Client.toStopped, OpState.held, resetAll_queued, resetAll_current, resetAll_writing,
      resetAll_unacked, List.nil_append, List.append_nil] at ho
    simpa [OpState.held] using .inr (.inl (by simpa using ho))
  | terminate hst hd =>
    refine fun o ho => .mem ?_
    simp only [Client.toTerminated, OpState.held, resetAll_queued, resetAll_current, resetAll_writing,
      resetAll_unacked, List.nil_append, List.append_nil] at ho
    simpa [OpState.held] using .inr (.inl (by simpa using ho))

/-! ## How PUBACK operations leave the client -/

/-- A plain PUBACK can always be encoded. -/
theorem setCurrent_puback {s s' : OpState} {op : Op} {id : Nat} {ok : Bool} (hp : op.packet = .puback { packetId := id })
    (h : s.setCurrent op = .ok (s', ok)) : ok = true := by
  have hb : s.bind op = some (s, op) := by simp [OpState.bind, hp, needsId, requiresAck]
  have hx : ∃ enc, s.encoder.append op.packet = .ok enc := by
    rw [hp]
    exact ⟨_, rfl⟩
  obtain ⟨enc, hx⟩ := hx
  unfold OpState.setCurrent at h
  simp only [hb, hx] at h
  cases h
  rfl

/-- What a new entry about an operation leaving the client comes from. -/
structure Leaves (c c' : Client) (new : List Effect) : Prop where
  log : c'.ops.log = c.ops.log ++ new
  dropped : ∀ u p, .dropped u p ∈ new → ∃ op ∈ c.ops.held, op.uid = u ∧ ∀ id, op.packet ≠ .puback { packetId := id }
  completed : ∀ u p a, .completed u p .success a ∈ new →
    (∃ op ∈ c.ops.writing, op.uid = u) ∨ (∃ op ∈ c.ops.held, op.uid = u ∧ requiresAck op.packet = true) ∨
      (u = c.ops.nextUid ∧ ∀ id, .pubackQueued u id ∉ new)

theorem Leaves.none {c c' : Client} {new : List Effect} (h : c'.ops.log = c.ops.log ++ new)
    (h1 : ∀ u p, .dropped u p ∉ new) (h2 : ∀ u p a, .completed u p .success a ∉ new) : Leaves c c' new :=
  ⟨h, fun u p hm => absurd hm (h1 u p), fun u p a hm => absurd hm (h2 u p a)⟩

theorem completions_success {ops : List Op} {e : Error} (he : e ≠ .success) {u : Nat} {p : Outgoing} {a : Option Received} :
    Effect.completed u p .success a ∉ completions ops e := by
  simp only [completions, List.mem_map, not_exists, not_and]
  intro op _ h
  simp only [Effect.completed.injEq] at h
  exact he h.2.2.1

theorem completions_dropped {ops : List Op} {e : Error} {u : Nat} {p : Outgoing} :
    Effect.dropped u p ∉ completions ops e := by
  simp [completions]

theorem invalid_fails {cfg : Config} {c : Client} {p : Outgoing} {e : Error} (h : c.invalid cfg p = some e) :
    e ≠ .success := by
  unfold Client.invalid at h
  rintro rfl
  revert h
  repeat' split
  all_goals simp

theorem move_leaves {cfg : Config} {c c' : Client} (hv : LiveInv c) (m : Move cfg c c') : ∃ new, Leaves c c' new := by
  cases m with
  | control k hk => exact ⟨[], .none (by simp) (by simp) (by simp)⟩
  | accept p t hp hs hst => exact ⟨[_], .none rfl (by simp) (by simp)⟩
  | reject p e hp =>
    refine ⟨_, rfl, by simp, fun u q a hm => .inr (.inr ?_)⟩
    simp at hm
    exact ⟨hm.1, by simp⟩
  | push p hp hst => exact ⟨[], .none (by simp [OpState.pushFront]) (by simp) (by simp)⟩
  | publish v a hst =>
    obtain ⟨s1, ctl, hs, hl, hx⟩ := onPublish_queue c.ops v a
    rcases hx with hx | hx
    · exact ⟨_, .none (by rw [hx]; exact hl) (by simp) (by simp)⟩
    · exact ⟨[.delivered v ctl, .pubackQueued s1.nextUid v.packetId],
        .none (by rw [hx]; simp [OpState.queuePuback, hl]) (by simp) (by simp)⟩
  | invoke ctl hst =>
    rcases invoke_queue c.ops ctl with ⟨id, s1, _, hs, hl, _, _, _, hx⟩ | ⟨_, hs, hl, _⟩
    · exact ⟨[.invoked ctl (some id), .pubackQueued s1.nextUid id],
        .none (by rw [hx]; simp [OpState.queuePuback, hl]) (by simp) (by simp)⟩
    · exact ⟨_, .none hl (by simp) (by simp)⟩
  | token id hst => exact ⟨[_], .none rfl (by simp) (by simp)⟩
  | invalid op rest e hq he =>
    refine ⟨[_], .none rfl (by simp) fun u p a hm => ?_⟩
    simp at hm
    exact invalid_fails he hm.2.2.1.symm
  | start op rest s ok hq hc he hst hs =>
    have hn := fun id (hp : op.packet = .puback { packetId := id }) => setCurrent_puback hp hs
    rcases setCurrent_cases hs with ⟨hk, p, n, enc, rfl, _⟩ | ⟨_, op', n, enc, rfl, hb, _⟩
    · refine ⟨[_], rfl, fun u q hm => ?_, by simp⟩
      simp at hm
      refine ⟨op, by simp [OpState.held, hq], hm.1.symm, fun id hp => ?_⟩
      have := hn id hp
      rw [hk] at this
      cases this
    · exact ⟨[_], .none rfl (by simp) (by simp)⟩
  | encode op buf buf' enc r hc he => exact ⟨[], .none (by simp) (by simp) (by simp)⟩
  | finish op now s hc hsteps hs =>
    obtain ⟨_, ⟨_, _, rfl⟩ | ⟨_, rfl⟩⟩ := finish_cases hs
    · exact ⟨[_], .none rfl (by simp) (by simp)⟩
    · exact ⟨[_], .none rfl (by simp) (by simp)⟩
  | write data => exact ⟨[_], .none rfl (by simp) (by simp)⟩
  | pinged uid => exact ⟨[_], .none rfl (by simp) (by simp)⟩
  | unwrite => exact ⟨[], .none (by simp) (by simp) (by simp)⟩
  | written e =>
    rw [completeAll_eq]
    refine ⟨_, rfl, fun u p hm => absurd hm completions_dropped, fun u p a hm => .inl ?_⟩
    simp only [completions, List.mem_map] at hm
    obtain ⟨op, ho, hx⟩ := hm
    cases hx
    exact ⟨op, ho, rfl⟩
  | ack id uid op rest e a ht hu =>
    refine ⟨[_], rfl, by simp, fun u p a' hm => .inr (.inl ?_)⟩
    simp at hm
    obtain ⟨x, y, h1, h2, _⟩ := takeUid_split hu
    have hmem : op ∈ c.ops.unacked := by rw [h1]; simp
    exact ⟨op, by simp [OpState.held, hmem], hm.1.symm, hv.acked op hmem⟩
  | timeout op rest hu ht =>
    refine ⟨[_], .none rfl (by simp) fun u p a hm => ?_⟩
    simp at hm
  | forget uid => exact ⟨[], .none (by simp) (by simp) (by simp)⟩
  | fresh hq => exact ⟨[], .none (by simp) (by simp) (by simp)⟩
  | disconnection e st hst =>
    refine ⟨_, .none (onDisconnection_log cfg c.ops) (fun u p hm => ?_) fun u p a hm => ?_⟩
    · rcases List.mem_append.1 hm with hm | hm
      · exact completions_dropped hm
      · simp at hm
    · rcases List.mem_append.1 hm with hm | hm
      · exact completions_success (by decide) hm
      · simp at hm
  | connection settings now hst =>
    simp only [Client.toConnected]
    refine ⟨_, .none (onConnection_log cfg settings c.ops) (fun u p hm => ?_) fun u p a hm => ?_⟩
    · rcases List.mem_append.1 hm with hm | hm
      · exact completions_dropped hm
      · simp at hm
    · rcases List.mem_append.1 hm with hm | hm
      · exact completions_success (by decide) hm
      · simp at hm
  | reset hst =>
    simp only [Client.toStopped]
    exact ⟨_, .none (resetAll_log c.ops .userStop) (fun u p hm => completions_dropped hm)
      fun u p a hm => completions_success (by decide) hm⟩
  | terminate hst hd =>
    simp only [Client.toTerminated]
    exact ⟨_, .none (resetAll_log c.ops .terminated) (fun u p hm => completions_dropped hm)
      fun u p a hm => completions_success (by decide) hm⟩

/-- What waits for the socket has been encoded. -/
theorem move_writing {cfg : Config} {c c' : Client} (h : ∀ op ∈ c.ops.writing, .encoded op.uid op.packet ∈ c.ops.log)
    (m : Move cfg c c') : ∀ op ∈ c'.ops.writing, .encoded op.uid op.packet ∈ c'.ops.log := by
  obtain ⟨new, hl, _⟩ := move_log m
  have old : ∀ op ∈ c.ops.writing, .encoded op.uid op.packet ∈ c'.ops.log := fun op ho => by
    rw [hl]; exact List.mem_append_left _ (h op ho)
  cases m with
  | publish v a hst =>
    obtain ⟨s1, ctl, hs, _, hx⟩ := onPublish_queue c.ops v a
    intro op ho
    refine old op ?_
    rcases hx with hx | hx <;> simp only [hx, OpState.queuePuback, hs.writing] at ho <;> exact ho
  | invoke ctl hst =>
    intro op ho
    refine old op ?_
    rcases invoke_queue c.ops ctl with ⟨id, s1, _, hs, _, _, _, _, hx⟩ | ⟨_, hs, _, _⟩
    · simp only [hx, OpState.queuePuback, hs.writing] at ho; exact ho
    · simp only [hs.writing] at ho; exact ho
  | start op rest s ok hq hc he hst hs =>
    rcases setCurrent_cases hs with ⟨_, p, n, enc, rfl, _⟩ | ⟨_, op', n, enc, rfl, hb, _⟩ <;> exact old
  | finish op now s hc hsteps hs =>
    obtain ⟨_, ⟨_, _, rfl⟩ | ⟨_, rfl⟩⟩ := finish_cases hs
    · exact old
    · intro o ho
      simp only [OpState.finishWrite, List.mem_append, List.mem_singleton] at ho
      rcases ho with ho | rfl
      · exact old o ho
      · simp [OpState.finishWrite]
  | written e => rw [completeAll_eq]; intro o ho; cases ho
  | disconnection e st hst => intro o ho; simp only [onDisconnection_writing] at ho; cases ho
  | connection settings now hst => 
    intro o ho
    simp only [Client.toConnected, onConnection_writing] at ho
    exact old o ho
  | reset hst => intro o ho; simp [Client.toStopped] at ho
  | terminate hst hd => intro o ho; simp [Client.toTerminated] at ho
  | _ => exact old

structure PackInv (c : Client) : Prop where
  packet : ∀ op ∈ c.ops.held, ∀ id, .pubackQueued op.uid id ∈ c.ops.log → op.packet = .puback { packetId := id }
  dropped : ∀ u p id, .dropped u p ∈ c.ops.log → .pubackQueued u id ∉ c.ops.log
  writing : ∀ op ∈ c.ops.writing, .encoded op.uid op.packet ∈ c.ops.log
  success : ∀ u p a id, .completed u p .success a ∈ c.ops.log → .pubackQueued u id ∈ c.ops.log →
    .encoded u (.puback { packetId := id }) ∈ c.ops.log

theorem pack_new (cfg : Config) : PackInv (Client.new cfg) := by
  constructor <;> simp [Client.new, OpState.held]

theorem HeldInv.lt {c : Client} (h : HeldInv c) {op : Op} (ho : op ∈ c.ops.held) : op.uid < c.ops.nextUid := by
  have h1 := h.once op.uid
  have h2 : 1 ≤ (c.ops.held.map (·.uid)).count op.uid := List.one_le_count_iff.2 (List.mem_map.2 ⟨op, ho, rfl⟩)
  unfold places born at h1
  split at h1
  · assumption
  · omega

theorem HeldInv.leftBelow {c : Client} (h : HeldInv c) {e : Effect} (he : e ∈ c.ops.log) {u : Nat} (hu : e.gone = some u) :
    u < c.ops.nextUid := by
  have h1 := h.once u
  have h2 : 1 ≤ (c.ops.log.filterMap Effect.gone).count u :=
    List.one_le_count_iff.2 (List.mem_filterMap.2 ⟨e, he, hu⟩)
  unfold places born at h1
  split at h1
  · assumption
  · omega

theorem pack_move {cfg : Config} {c c' : Client} (hh : HeldInv c) (hv : LiveInv c) (hp : PubackInv c) (h : PackInv c)
    (m : Move cfg c c') : PackInv c' := by
  obtain ⟨new, hl, hn, hw, hs, hq⟩ := move_pubacks hh hv m
  obtain ⟨new', hl', hd, hc⟩ := move_leaves hv m
  obtain rfl : new' = new := List.append_cancel_left (hl'.symm.trans hl)
  have fresh : ∀ u id, Effect.pubackQueued u id ∈ new' → u = c.ops.nextUid := fun u id hm => by
    obtain ⟨a, b, hx⟩ := List.append_of_mem hm
    exact (hq a _ b hx u id rfl).1
  have old : ∀ u id, u < c.ops.nextUid → Effect.pubackQueued u id ∈ c'.ops.log → .pubackQueued u id ∈ c.ops.log := by
    intro u id hu hm
    rw [hl] at hm
    rcases List.mem_append.1 hm with hm | hm
    · exact hm
    · have := fresh u id hm; omega
  refine ⟨?_, ?_, move_writing h.writing m, ?_⟩
  · intro op ho id hm
    rcases move_pack hp m op ho with ⟨o, ho', h1, h2⟩ | ⟨h1, h2⟩
    · refine h2 _ (h.packet o ho' id ?_)
      rw [h1]
      exact old _ _ (by rw [← h1]; exact hh.lt ho') hm
    · exact h2 id (by rw [← h1]; exact hm)
  · intro u p id hm hm'
    rw [hl] at hm
    rcases List.mem_append.1 hm with hm | hm
    · exact h.dropped u p id hm (old _ _ (hh.leftBelow hm rfl) hm')
    · obtain ⟨op, ho, rfl, hx⟩ := hd u p hm
      exact hx id (h.packet op ho id (old _ _ (hh.lt ho) hm'))
  · intro u p a id hm hm'
    have up : ∀ p', Effect.encoded u p' ∈ c.ops.log → Effect.encoded u p' ∈ c'.ops.log := by
      intro p' hx
      rw [hl]; exact List.mem_append_left _ hx
    rw [hl] at hm
    rcases List.mem_append.1 hm with hm | hm
    · exact up _ (h.success u p a id hm (old _ _ (hh.leftBelow hm rfl) hm'))
    · rcases hc u p a hm with ⟨op, ho, rfl⟩ | ⟨op, ho, rfl, hr⟩ | ⟨rfl, hx⟩
      · have hx : op ∈ c.ops.held := by simp [OpState.held, ho]
        rw [← h.packet op hx id (old _ _ (hh.lt hx) hm')]
        exact up _ (h.writing op ho)
      · rw [h.packet op ho id (old _ _ (hh.lt ho) hm')] at hr
        cases hr
      · rw [hl] at hm'
        rcases List.mem_append.1 hm' with hm' | hm'
        · have := hp.bound _ _ hm'; omega
        · exact absurd hm' (hx id)

theorem reachable_pack {cfg : Config} {c : Client} (h : Reachable cfg c) : PackInv c :=
  (reachable_inv (P := fun c => (HeldInv c ∧ LiveInv c) ∧ PubackInv c ∧ PackInv c)
    ⟨⟨held_new cfg, live_new cfg⟩, puback_new cfg, pack_new cfg⟩
    (fun _ _ ⟨⟨hh, hl⟩, hp, hx⟩ m => ⟨⟨held_move hh m, live_move hh hl m⟩, puback_move hh hl hp m,
      pack_move hh hl hp hx m⟩) h).2.2

/-- Without a connection no PUBACK is queued, and no control is given out. -/
theorem quiet_move {cfg : Config} {c c' : Client}
    (h : c.ctl.state.quiet = true → c.ops.manualCtl = [] ∧ ∀ op ∈ c.ops.queued, ∀ v, op.packet ≠ .puback v)
    (m : Move cfg c c') :
    c'.ctl.state.quiet = true → c'.ops.manualCtl = [] ∧ ∀ op ∈ c'.ops.queued, ∀ v, op.packet ≠ .puback v := by
  cases m with
  | control k hk => exact fun hq => h (hk.ctl.quiet hq)
  | accept p t hp hs hst =>
    intro hq
    obtain ⟨h1, h2⟩ := h hq
    refine ⟨h1, fun op ho v hv' => ?_⟩
    simp only [OpState.accept, List.mem_append, List.mem_singleton] at ho
    rcases ho with ho | rfl
    · exact h2 op ho v hv'
    · have : isUser (withPacketId p 0) = true := by
        cases p <;> simp only [Enabled.Submittable] at hs <;> rfl
      simp only [changeStats_packet, OpState.newOp] at hv'
      rw [hv'] at this
      cases this
  | push p hp hst =>
    intro hq
    obtain ⟨h1, h2⟩ := h hq
    refine ⟨h1, fun op ho v hv' => ?_⟩
    simp only [OpState.pushFront, List.mem_cons] at ho
    rcases ho with rfl | ho
    · simp only [OpState.newOp] at hv'
      subst hv'
      simp [isConnect, isDisconnect] at hp
    · exact h2 op ho v hv'
  | publish v a hst => intro hq; rcases hst with h | h <;> simp [h, State.quiet] at hq
  | invoke ctl hst =>
    intro hq
    obtain ⟨h1, h2⟩ := h hq
    rcases invoke_queue c.ops ctl with ⟨id, s1, hg, _⟩ | ⟨_, hs, _, _, a2, _⟩
    · rw [h1] at hg; cases hg
    · exact ⟨a2.trans h1, by simp only [hs.queued]; exact h2⟩
  | invalid op rest e hq he =>
    intro hx
    obtain ⟨h1, h2⟩ := h hx
    exact ⟨h1, fun o ho => h2 o (by rw [hq]; exact List.mem_cons_of_mem _ ho)⟩
  | start op rest s ok hq hc he hst hs =>
    intro hx
    rcases hst with h | ⟨h, _⟩ | ⟨h, _⟩ <;> simp [h, State.quiet] at hx
  | finish op now s hc hsteps hs =>
    obtain ⟨_, ⟨_, _, rfl⟩ | ⟨_, rfl⟩⟩ := finish_cases hs <;> exact h
  | written e => rw [completeAll_eq]; exact h
  | disconnection e st hst =>
    intro _
    refine ⟨?_, fun o ho v hv' => ?_⟩
    · unfold OpState.onDisconnection
      simp only [completeAll_eq]
      exact (resetManual_cleared _).1
    · simp only [onDisconnection_queued, keep, List.mem_filter] at ho
      have := ho.2
      rw [hv'] at this
      cases hb : cfg.offline <;> simp [retained, isUser, hb] at this
  | connection settings now hst =>
    intro hx
    rcases (toConnected_ctl cfg ({ c with ctl := { c.ctl with settings := settings } } : Client) now).2 with h' | h' <;>
      simp [h', State.quiet] at hx
  | reset hst =>
    intro _
    refine ⟨?_, by simp [Client.toStopped]⟩
    simp only [Client.toStopped]
    unfold OpState.resetAll
    simp only [completeAll_eq]
    exact (resetManual_cleared _).1
  | terminate hst hd => exact fun _ => ⟨rfl, by simp [Client.toTerminated]⟩
  | _ => exact h

theorem reachable_quiet {cfg : Config} {c : Client} (h : Reachable cfg c) :
    c.ctl.state.quiet = true → c.ops.manualCtl = [] ∧ ∀ op ∈ c.ops.queued, ∀ v, op.packet ≠ .puback v :=
  reachable_inv (P := fun c => c.ctl.state.quiet = true → c.ops.manualCtl = [] ∧ ∀ op ∈ c.ops.queued, ∀ v, op.packet ≠ .puback v)
    (by simp [Client.new]) (fun _ _ hx m => quiet_move hx m) h

/-! ## A client that has terminated stays so -/

def ChanInv (k : Control) : Prop := k.channel = true → k.state.open = true ∨ k.state = .channelShutdown

theorem ChanInv.soft {k k' : Control} (h : ChanInv k) (hs : Soft k k') : ChanInv k' := by
  intro hc
  rw [hs.channel] at hc
  rcases hs.state with h1 | ⟨_, h1 | h1⟩
  · rw [h1]; exact h hc
  · exact .inl (by rw [h1]; rfl)
  · exact .inr h1

theorem ChanInv.kmove {k k' : Control} (h : ChanInv k) (m : KMove k k') : ChanInv k' := by
  cases m with
  | shutdown e _ => exact h.soft (shutdownChannel_soft _ _)
  | giveUp => exact h.soft (shutdownChannel_soft _ _)
  | emitShutdown e e' _ => exact (h.soft (emitFinal_soft _ _)).soft (shutdownChannel_soft _ _)
  | emitClean e e' _ => exact fun _ => .inl rfl
  | misc _ h1 _ _ _ h5 => unfold ChanInv; rw [h1, h5]; exact h
  | desired d => exact h
  | connecting hs _ =>
    intro hc
    rcases h hc with h1 | h1 <;> rcases hs with hs | hs <;> simp [hs, State.open] at h1
  | kickOff e hs _ =>
    intro hc
    have : k.channel = true := by rw [← (emitFinal_soft k e).channel]; exact hc
    rcases h this with h1 | h1 <;> simp [hs, State.open] at h1
  | refuse _ _ => exact fun _ => .inr rfl
  | opened _ _ => exact fun _ => .inl rfl
  | settings s _ => exact h
  | clean e _ => exact fun _ => .inl rfl

theorem ChanInv.move {cfg : Config} {c c' : Client} (h : ChanInv c.ctl) (m : Move cfg c c') : ChanInv c'.ctl := by
  cases m with
  | control k hk => exact h.kmove hk
  | disconnection e st hst =>
    intro hc
    have h2 := onCompleteAll_soft ({ c.ctl.emitFinal (if e = .success then .hangup else e) with slot := false, channel := false } : Control)
      (c.ops.lostOnDisconnection cfg) .offlinePolicy
    have h3 := h2.channel
    have h4 : (c.ctl.channelGone (c.ops.lostOnDisconnection cfg) e).channel = true := hc
    exact absurd (h3.symm.trans h4) (by simp)
  | connection settings now hst =>
    intro _
    rcases (toConnected_ctl cfg ({ c with ctl := { c.ctl with settings := settings } } : Client) now).2 with h' | h'
    · exact .inl (by rw [h']; rfl)
    · exact .inr h'
  | reset hst =>
    intro hc
    have h2 : c.toStopped.ctl.channel = c.ctl.channel := by
      simp only [Client.toStopped, Control.emitStopped]
      exact (onCompleteAll_soft _ _ _).channel
    rw [h2] at hc
    rcases h hc with h1 | h1 <;> rcases hst with hs | hs <;> simp [hs, State.open] at h1
  | terminate hst hd =>
    intro hc
    have h2 : c.toTerminated.ctl.channel = c.ctl.channel := by
      simp only [Client.toTerminated]
      exact (onCompleteAll_soft _ _ _).channel
    rw [h2] at hc
    rcases h hc with h1 | h1 <;> simp [hst, State.open] at h1
  | _ => exact h

theorem reachable_chan {cfg : Config} {c : Client} (h : Reachable cfg c) : ChanInv c.ctl :=
  reachable_inv (P := fun c => ChanInv c.ctl) (by simp [ChanInv, Client.new]) (fun _ _ h m => h.move m) h

theorem stays_terminated {cfg : Config} {c c' : Client} {e : Event} (hr : Reachable cfg c) (ht : c.ctl.state = .terminated)
    (he : Enabled c e) (h : step cfg c e = .ok c') : c'.ctl.state = .terminated := by
  have h1 : c.ctl.channel = false := by
    cases hc : c.ctl.channel with
    | false => rfl
    | true => rcases reachable_chan hr hc with h | h <;> simp [ht, State.open] at h
  have h2 : c.ctl.slot = false := by
    cases hc : c.ctl.slot with
    | false => rfl
    | true => rcases (reachable_event hr).slot hc with h | h <;> simp [ht, State.open] at h
  cases e <;> simp [Enabled, ht, h1, h2] at he
  simp only [step] at h
  cases h
  rw [submit_ctl, ht]

theorem step_log {cfg : Config} {c c' : Client} {e : Event} (he : Enabled c e) (h : step cfg c e = .ok c') :
    ∃ new, c'.ops.log = c.ops.log ++ new :=
  moves_inv (P := fun x => ∃ new, x.ops.log = c.ops.log ++ new) (fun x x' ⟨n, hn⟩ m => by
    obtain ⟨n', hn', _⟩ := move_log m
    exact ⟨n ++ n', by rw [hn', hn, List.append_assoc]⟩) (step_moves he h) ⟨[], by simp⟩

end Mqtt.Client5

namespace Mqtt.ManualAck5

open Mqtt.Client5 Mqtt.V5

/-! ## How a control stands -/

def fate (s : OpState) (ctl : Nat) : Standing :=
  match s.manualCtl.get ctl with
  | some id => .held id
  | none => if s.cancelled.contains ctl then .cut else .unknown

structure FateInv (s : OpState) : Prop where
  same : ∀ ctl, fate s ctl = standing ctl s.log
  below : ∀ k ∈ s.cancelled, k < s.nextCtl
  apart : ∀ k ∈ s.cancelled, s.manualCtl.get k = none

theorem standing_append (ctl : Nat) (log new : List Effect) :
    standing ctl (log ++ new) = new.foldl (stand ctl) (standing ctl log) := by simp [standing]

theorem stand_boring {ctl : Nat} {e : Effect} (he : e.manual = false) (s : Standing) : stand ctl s e = s := by
  cases e <;> simp [Effect.manual] at he <;> rfl

theorem stand_boringAll {ctl : Nat} {new : List Effect} (h : ∀ e ∈ new, e.manual = false) (s : Standing) :
    new.foldl (stand ctl) s = s := by
  induction new generalizing s with
  | nil => rfl
  | cons e l ih =>
    rw [List.foldl_cons, stand_boring (h e (by simp)), ih fun x hx => h x (by simp [hx])]

theorem FateInv.keep {s s' : OpState} {new : List Effect} (h : FateInv s) (hl : s'.log = s.log ++ new)
    (hn : ∀ e ∈ new, e.manual = false) (h1 : s'.manualCtl = s.manualCtl) (h2 : s'.cancelled = s.cancelled)
    (h3 : s'.nextCtl = s.nextCtl) : FateInv s' := by
  refine ⟨fun ctl => ?_, by rw [h2, h3]; exact h.below, by rw [h2, h1]; exact h.apart⟩
  rw [hl, standing_append, stand_boringAll hn, ← h.same]
  simp only [fate, h1, h2]

theorem FateInv.publish {s : OpState} (h : FateInv s)
    (hf : ∀ id ctl, s.manualIds.get id = some ctl → s.manualCtl.get ctl = some id)
    (v : PublishView) (a : Bool) :
    FateInv (s.onPublish v a) := by
  have plain : ∀ new : List Effect, (∀ e ∈ new, e = .delivered v none ∨ ∃ u i, e = .pubackQueued u i) →
      ∀ s' : OpState, s'.log = s.log ++ new → s'.manualCtl = s.manualCtl → s'.cancelled = s.cancelled →
      s'.nextCtl = s.nextCtl → FateInv s' := by
    intro new hn s' hl h1 h2 h3
    refine ⟨fun ctl => ?_, by rw [h2, h3]; exact h.below, by rw [h2, h1]; exact h.apart⟩
    have : new.foldl (stand ctl) (standing ctl s.log) = standing ctl s.log := by
      clear hl
      generalize standing ctl s.log = t
      induction new generalizing t with
      | nil => rfl
      | cons e l ih =>
        rw [List.foldl_cons]
        have : stand ctl t e = t := by
          rcases hn e (by simp) with rfl | ⟨u, i, rfl⟩ <;> rfl
        rw [this, ih (fun x hx => hn x (by simp [hx]))]
    rw [hl, standing_append, this, ← h.same]
    simp only [fate, h1, h2]
  unfold OpState.onPublish
  split
  · exact plain [.delivered v none] (by simp) _ rfl rfl rfl rfl
  · cases a with
    | false =>
      simp only [Bool.false_eq_true, if_false]
      split
      · exact plain [.delivered v none] (by simp) _ rfl rfl rfl rfl
      · exact plain [.delivered v none, .pubackQueued s.nextUid v.packetId] (by simp) _
          (by simp [OpState.queuePuback]) rfl rfl rfl
    | true =>
      simp only [if_true]
      unfold OpState.acquire
      cases hg : s.manualIds.get v.packetId with
      | some ctl =>
        simp only [hg, Option.isSome_some, if_true]
        refine ⟨fun k => ?_, h.below, h.apart⟩
        simp only [standing_append, List.foldl_cons, List.foldl_nil, stand]
        have hk := h.same k
        split
        · rename_i he
          subst he
          simp only [fate, hf _ _ hg]
        · rw [← hk]; simp only [fate]
      | none =>
        simp only [AMap.get_set_same, Option.isSome_some, if_true]
        refine ⟨fun k => ?_, fun k hk => ?_, fun k hk => ?_⟩
        · simp only [standing_append, List.foldl_cons, List.foldl_nil, stand]
          rw [← h.same k]
          simp only [fate, AMap.get_set]
          by_cases he : k = s.nextCtl
          · simp [he]
          · have he' : ¬ s.nextCtl = k := fun hx => he hx.symm
            simp only [he, he', if_false]
        · have := h.below k hk
          simp only; omega
        · have := h.below k hk
          simp only [AMap.get_set]
          rw [if_neg (by omega)]
          exact h.apart k hk

theorem FateInv.invoke {s : OpState} (h : FateInv s) (ctl : Nat) : FateInv (s.invoke ctl) := by
  unfold OpState.invoke
  split
  · rename_i id hg
    have hn : ctl ∉ s.cancelled := fun hm => by rw [h.apart ctl hm] at hg; cases hg
    refine ⟨fun k => ?_, h.below, fun k hk => ?_⟩
    · simp only [OpState.queuePuback, standing_append, List.foldl_cons, List.foldl_nil, stand]
      rw [← h.same k]
      simp only [fate, AMap.get_del]
      by_cases he : k = ctl
      · subst he; simp [hn]
      · have he' : ¬ ctl = k := fun hx => he hx.symm
        simp only [he, he', if_false]
    · simp only [OpState.queuePuback, AMap.get_del]
      split
      · rfl
      · exact h.apart k hk
  · rename_i hg
    refine ⟨fun k => ?_, fun k hk => ?_, fun k hk => ?_⟩
    · simp only [standing_append, List.foldl_cons, List.foldl_nil, stand]
      rw [← h.same k]
      simp only [fate]
      by_cases he : k = ctl
      · subst he; simp [hg]
      · have he' : ¬ ctl = k := fun hx => he hx.symm
        simp [he, he']
    · exact h.below k (List.mem_filter.1 hk).1
    · exact h.apart k (List.mem_filter.1 hk).1

theorem FateInv.lost {s s1 : OpState} {done : List Effect} (h : FateInv s)
    (hb : ∀ ctl id, s.manualCtl.get ctl = some id → ctl < s.nextCtl) (hd : ∀ e ∈ done, e.manual = false)
    (hl : s1.log = s.log ++ (done ++ [.disconnected])) (h1 : s1.manualCtl = s.manualCtl) (h2 : s1.cancelled = s.cancelled)
    (h3 : s1.nextCtl = s.nextCtl) : FateInv s1.resetManual := by
  have hst : ∀ k, standing k s1.log = match fate s k with | .held _ => .cut | t => t := by
    intro k
    rw [hl, standing_append, List.foldl_append, stand_boringAll hd, ← h.same k]
    rfl
  unfold OpState.resetManual
  split
  · refine ⟨fun k => ?_, fun k hk => ?_, fun k hk => rfl⟩
    · simp only [hst, h1, h2, fate, AMap.get_nil]
      cases hg : s.manualCtl.get k with
      | some id =>
        have : k ∈ s.manualCtl.map (·.1) := by
          have := AMap.get_some_mem hg
          exact List.mem_map.2 ⟨_, this, rfl⟩
        simp only [List.contains_iff_mem, List.mem_append, this, or_true, if_true]
      | none =>
        have : k ∉ s.manualCtl.map (·.1) := by
          intro hm
          obtain ⟨⟨_, w⟩, hw, rfl⟩ := List.mem_map.1 hm
          have := AMap.get_isSome_iff.2 ⟨w, hw⟩
          rw [hg] at this
          cases this
        simp only [List.contains_iff_mem, List.mem_append, this, or_false]
        split <;> simp
    · simp only [h1, h2, h3, List.mem_append, List.mem_map] at hk ⊢
      rcases hk with hk | hk
      · exact h.below k hk
      · have : (s.manualCtl.get k).isSome = true := by
          obtain ⟨⟨_, w⟩, hw, rfl⟩ := hk
          exact AMap.get_isSome_iff.2 ⟨w, hw⟩
        obtain ⟨id, hid⟩ := Option.isSome_iff_exists.1 this
        exact hb k id hid
  · rename_i hx
    have hnil : s1.manualCtl = [] := List.length_eq_zero_iff.1 (by omega)
    refine ⟨fun k => ?_, by rw [h2, h3]; exact h.below, by rw [h2, h1]; exact h.apart⟩
    rw [hst]
    simp only [fate, h2, hnil, ← h1, AMap.get_nil]
    split <;> simp

theorem FateInv.move {g : Readings} {cfg : Config} {c c' : Client} (hg : ¬ g.ends) (hm : ManualInv c)
    (hq : c.ctl.state.quiet = true → c.ops.manualCtl = [] ∧ ∀ op ∈ c.ops.queued, ∀ v, op.packet ≠ .puback v)
    (h : FateInv c.ops) (m : MoveG g cfg c c') : FateInv c'.ops := by
  have hb : ∀ ctl id, c.ops.manualCtl.get ctl = some id → ctl < c.ops.nextCtl := by
    intro ctl id hx
    obtain ⟨a, v, b, hy, _⟩ := hm.out _ _ hx
    exact hm.bound v ctl (by rw [hy]; simp)
  cases m with
  | control k hk => exact h
  | accept p t hp hs hst => exact h.keep (new := [_]) rfl (by simp [Effect.manual]) rfl rfl rfl
  | reject p e hp => exact h.keep rfl (by simp [Effect.manual]) rfl rfl rfl
  | push p hp hst => exact h.keep (new := []) (by simp [OpState.pushFront]) (by simp) rfl rfl rfl
  | publish v a hst => exact h.publish hm.forth v a
  | invoke ctl hst => exact h.invoke ctl
  | token id hst => exact h.keep (new := [_]) rfl (by simp [Effect.manual]) rfl rfl rfl
  | invalid op rest e hq he => exact h.keep (new := [_]) rfl (by simp [Effect.manual]) rfl rfl rfl
  | start op rest s ok hq hc he hst hs =>
    rcases setCurrent_cases hs with ⟨_, p, n, enc, rfl, _⟩ | ⟨_, op', n, enc, rfl, hb, _⟩
    · exact h.keep (new := [_]) rfl (by simp [Effect.manual]) rfl rfl rfl
    · exact h.keep (new := [_]) rfl (by simp [Effect.manual]) rfl rfl rfl
  | encode op buf buf' enc r hc he => exact h.keep (new := []) (by simp) (by simp) rfl rfl rfl
  | finish op now s hc hsteps hs =>
    obtain ⟨_, ⟨_, _, rfl⟩ | ⟨_, rfl⟩⟩ := finish_cases hs
    · exact h.keep (new := [_]) rfl (by simp [Effect.manual]) rfl rfl rfl
    · exact h.keep (new := [_]) rfl (by simp [Effect.manual]) rfl rfl rfl
  | write data => exact h.keep (new := [_]) rfl (by simp [Effect.manual]) rfl rfl rfl
  | pinged uid => exact h.keep (new := [_]) rfl (by simp [Effect.manual]) rfl rfl rfl
  | unwrite => exact h.keep (new := []) (by simp) (by simp) rfl rfl rfl
  | written e =>
    rw [completeAll_eq]
    exact h.keep rfl (completions_manual _ _) rfl rfl rfl
  | ack id uid op rest e a ht hu => exact h.keep (new := [_]) rfl (by simp [Effect.manual]) rfl rfl rfl
  | timeout op rest hu ht => exact h.keep (new := [_]) rfl (by simp [Effect.manual]) rfl rfl rfl
  | forget uid => exact h.keep (new := []) (by simp) (by simp) rfl rfl rfl
  | fresh hq => exact h.keep (new := []) (by simp) (by simp) rfl rfl rfl
  | disconnection e st hst =>
    have hl := onDisconnection_log cfg c.ops
    simp only
    unfold OpState.onDisconnection at hl ⊢
    simp only [completeAll_eq] at hl ⊢
    refine h.lost hb (completions_manual _ _) (Eq.trans ?_ hl) rfl rfl rfl
    unfold OpState.resetManual
    split <;> rfl
  | connection settings now hst =>
    simp only [Client.toConnected]
    refine h.keep (onConnection_log cfg settings c.ops) ?_ (by simp) ?_ (by simp)
    · intro x hx
      rcases List.mem_append.1 hx with hx | hx
      · exact completions_manual _ _ x hx
      · rw [List.mem_singleton.1 hx]; rfl
    · unfold OpState.onConnection
      split <;> simp [completeAll_eq]
  | reset hst =>
    have hn := (hq (by rcases hst with h | h <;> rw [h] <;> rfl)).1
    have hl := resetAll_log c.ops .userStop
    simp only [Client.toStopped]
    refine h.keep hl (completions_manual _ _) ?_ ?_ ?_ <;>
    · unfold OpState.resetAll OpState.resetManual
      simp only [completeAll_eq, hn, List.length_nil, Nat.lt_irrefl, gt_iff_lt, if_false]
  | terminate hst hd he => exact absurd he hg

theorem reachable_fate {cfg : Config} {c : Client} (h : Client5.Reachable cfg c) :
    c.ctl.state = .terminated ∨ FateInv c.ops := by
  induction h with
  | new => exact .inr ⟨by simp [fate, standing, Client.new], by simp [Client.new], by simp [Client.new]⟩
  | @step c c' e hr he hs ih =>
    rcases ih with ht | hf
    · exact .inl (stays_terminated hr ht he hs)
    · by_cases ht : c'.ctl.state = .terminated
      · exact .inl ht
      · right
        have hms : MovesG ⟨fun _ => True, fun _ _ => True, False⟩ cfg c c' :=
          step_movesG he hs (by cases e <;> simp [Readings.of]) (fun h => absurd h ht)
        have hm := (reachable_manual hr).1
        have hq := reachable_quiet hr
        clear hs he hr ht
        induction hms with
        | nil => exact hf
        | cons m _ ih => exact ih (hf.move (by simp) hm hq m) (manual_move hm m.any) (quiet_move hq m.any)

/-! ## Answers -/

/-- What the completions of an operation make of its result. -/
def results (u : Nat) (log : List Effect) : List Result :=
  log.filterMap fun
    | .completed v _ e _ => if v = u then some (converted e) else none
    | _ => none

theorem results_append (u : Nat) (a b : List Effect) : results u (a ++ b) = results u a ++ results u b := by
  simp [results]

theorem effect_calls (new : List Effect) (b : Book) :
    (new.foldl Book.effect b).calls = b.calls ∧ (new.foldl Book.effect b).ops = b.ops := by
  induction new generalizing b with
  | nil => exact ⟨rfl, rfl⟩
  | cons e l ih =>
    rw [List.foldl_cons]
    obtain ⟨h1, h2⟩ := ih (b.effect e)
    rw [h1, h2]
    cases e <;> exact ⟨rfl, rfl⟩

theorem answers_one {b : Book} {n u : Nat} (h : b.ops.filter (·.2 == n) = [(u, n)]) (new : List Effect) :
    answersOf n (new.foldl Book.effect b) = answersOf n b ++ results u new := by
  induction new generalizing b with
  | nil => simp [results]
  | cons e l ih =>
    have ho : (b.effect e).ops = b.ops := (effect_calls [e] b).2
    rw [List.foldl_cons, ih (by rw [ho]; exact h)]
    have : answersOf n (b.effect e) = answersOf n b ++ results u [e] := by
      cases e with
      | completed v p r a =>
        have hf : (b.ops.filter (·.1 == v)).filter (·.2 == n) = [(u, n)].filter (·.1 == v) := by
          rw [← h, List.filter_filter, List.filter_filter]
          exact List.filter_congr fun x _ => Bool.and_comm _ _
        simp only [Book.effect, answersOf, List.filter_append, List.map_append, List.filter_map, results]
        congr 1
        have : (b.ops.filter (·.1 == v)).filter ((fun x : Nat × Result => x.1 == n) ∘ fun o => (o.2, converted r)) =
            [(u, n)].filter (·.1 == v) := hf
        rw [this]
        by_cases hv : u = v
        · simp [hv]
        · have hv' : ¬ v = u := fun h => hv h.symm
          simp [hv, hv']
      | _ => simp [Book.effect, results]
    rw [this, List.append_assoc, ← results_append]
    rfl

theorem answers_none {b : Book} {n : Nat} (h : b.ops.filter (·.2 == n) = []) (new : List Effect) :
    answersOf n (new.foldl Book.effect b) = answersOf n b := by
  induction new generalizing b with
  | nil => rfl
  | cons e l ih =>
    have ho : (b.effect e).ops = b.ops := (effect_calls [e] b).2
    rw [List.foldl_cons, ih (by rw [ho]; exact h)]
    cases e with
    | completed v p r a =>
      have hf : (b.ops.filter (·.1 == v)).filter (·.2 == n) = [] := by
        rw [List.filter_filter]
        have : (b.ops.filter (·.2 == n)).filter (·.1 == v) = [] := by rw [h]; rfl
        rw [List.filter_filter] at this
        rw [← this]
        exact List.filter_congr fun x _ => Bool.and_comm _ _
      have : (b.ops.filter (·.1 == v)).filter ((fun x : Nat × Result => x.1 == n) ∘ fun o => (o.2, converted r)) = [] := hf
      simp only [Book.effect, answersOf, List.filter_append, List.map_append, List.filter_map, this]
      simp
    | _ => rfl

/-- Invocation `n`, of the control `ctl`, has made the PUBACK operation `u`. -/
def Made (c : Client) (b : Book) (n ctl u id : Nat) : Prop :=
  b.ops.filter (·.2 == n) = [(u, n)] ∧
  (∃ x y, c.ops.log = x ++ .invoked ctl (some id) :: .pubackQueued u id :: y) ∧
  answersOf n b = results u c.ops.log

structure BookInv (c : Client) (b : Book) : Prop where
  past : ∀ n ctl, b.calls[n]? = some ctl → (∃ u id, Made c b n ctl u id) ∨
    (b.ops.filter (·.2 == n) = [] ∧ (answersOf n b = [.cancelled] ∨ answersOf n b = [.invalid]))
  future : ∀ n, b.calls.length ≤ n → b.ops.filter (·.2 == n) = [] ∧ answersOf n b = []

theorem BookInv.log {c c' : Client} {b : Book} (h : BookInv c b) {new : List Effect}
    (hl : c'.ops.log = c.ops.log ++ new) : BookInv c' (new.foldl Book.effect b) := by
  obtain ⟨h1, h2⟩ := effect_calls new b
  refine ⟨fun n ctl hn => ?_, fun n hn => ?_⟩
  · rw [h1] at hn
    rcases h.past n ctl hn with ⟨u, id, m1, ⟨x, y, hx⟩, m3⟩ | ⟨m1, m2⟩
    · refine .inl ⟨u, id, by rw [h2]; exact m1, ⟨x, y ++ new, by rw [hl, hx]; simp⟩, ?_⟩
      rw [answers_one m1, m3, hl, results_append]
    · exact .inr ⟨by rw [h2]; exact m1, by rw [answers_none m1]; exact m2⟩
  · rw [h1] at hn
    obtain ⟨m1, m2⟩ := h.future n hn
    exact ⟨by rw [h2]; exact m1, by rw [answers_none m1]; exact m2⟩

theorem results_none {c : Client} (h : HeldInv c) : results c.ops.nextUid c.ops.log = [] := by
  rw [results, List.filterMap_eq_nil_iff]
  intro e he
  cases e with
  | completed u p r a =>
    have := h.leftBelow he (u := u) rfl
    simp only
    rw [if_neg (by omega)]
  | _ => rfl

theorem BookInv.invoke {c : Client} {b : Book} (h : BookInv c b) (hh : HeldInv c) (ctl : Nat) :
    BookInv { c with ops := c.ops.invoke ctl } (b.next c (.invoke ctl) { c with ops := c.ops.invoke ctl }) := by
  cases hg : c.ops.manualCtl.get ctl with
  | some id =>
    have hl : (c.ops.invoke ctl).log = c.ops.log ++ [.invoked ctl (some id), .pubackQueued c.ops.nextUid id] := by
      simp [OpState.invoke, hg, OpState.queuePuback]
    have hb : b.next c (.invoke ctl) { c with ops := c.ops.invoke ctl } =
        { b with calls := b.calls ++ [ctl], ops := b.ops ++ [(c.ops.nextUid, b.calls.length)] } := by
      simp only [Book.next, hl, List.drop_left]
      simp [Book.event, verdict, hg, Book.effect]
    rw [hb]
    have hr : ∀ u, results u (c.ops.log ++ [.invoked ctl (some id), .pubackQueued c.ops.nextUid id]) =
        results u c.ops.log := by intro u; rw [results_append]; simp [results]
    refine ⟨fun n k hn => ?_, fun n hn => ?_⟩
    · simp only [List.getElem?_append] at hn
      split at hn
      · rename_i hlt
        have hne : (b.calls.length == n) = false := by simp; omega
        rcases h.past n k hn with ⟨u, i, m1, ⟨x, y, hx⟩, m3⟩ | ⟨m1, m2⟩
        · refine .inl ⟨u, i, by simp [m1, hne], ⟨x, y ++ [.invoked ctl (some id), .pubackQueued c.ops.nextUid id], ?_⟩, ?_⟩
          · simp only [hl, hx]; simp
          · simp only [hl, hr]; exact m3
        · exact .inr ⟨by simp [m1, hne], m2⟩
      · rename_i hlt
        have : n = b.calls.length := by
          rcases Nat.lt_or_ge b.calls.length n with h' | h'
          · have : 1 ≤ n - b.calls.length := by omega
            rw [List.getElem?_eq_none (by simpa using this)] at hn
            cases hn
          · omega
        subst this
        simp at hn
        subst hn
        obtain ⟨m1, m2⟩ := h.future _ (Nat.le_refl _)
        refine .inl ⟨c.ops.nextUid, id, by simp [m1], ⟨c.ops.log, [], by simp only [hl]⟩, ?_⟩
        simp only [hl, hr, results_none hh]
        exact m2
    · simp only [List.length_append, List.length_singleton] at hn
      obtain ⟨m1, m2⟩ := h.future n (by omega)
      have hne : (b.calls.length == n) = false := by simp; omega
      exact ⟨by simp [m1, hne], m2⟩
  | none =>
    have hl : (c.ops.invoke ctl).log = c.ops.log ++ [.invoked ctl none] := by
      simp [OpState.invoke, hg]
    obtain ⟨r, hv, hr⟩ : ∃ r, verdict c.ops ctl = some r ∧ (r = .cancelled ∨ r = .invalid) := by
      simp only [verdict, hg, Option.isSome_none, Bool.false_eq_true, if_false]
      split
      · exact ⟨_, rfl, .inl rfl⟩
      · exact ⟨_, rfl, .inr rfl⟩
    have hb : b.next c (.invoke ctl) { c with ops := c.ops.invoke ctl } =
        { b with calls := b.calls ++ [ctl], answers := b.answers ++ [(b.calls.length, r)] } := by
      simp only [Book.next, hl, List.drop_left]
      simp [Book.event, hv, Book.effect]
    rw [hb]
    have hrs : ∀ u, results u (c.ops.log ++ [.invoked ctl none]) = results u c.ops.log := by
      intro u; rw [results_append]; simp [results]
    have ha : ∀ n, n ≠ b.calls.length → answersOf n
        { b with calls := b.calls ++ [ctl], answers := b.answers ++ [(b.calls.length, r)] } = answersOf n b := by
      intro n hn
      have hne : (b.calls.length == n) = false := by simp; omega
      simp [answersOf, hne]
    refine ⟨fun n k hn => ?_, fun n hn => ?_⟩
    · simp only [List.getElem?_append] at hn
      split at hn
      · rename_i hlt
        rcases h.past n k hn with ⟨u, i, m1, ⟨x, y, hx⟩, m3⟩ | ⟨m1, m2⟩
        · refine .inl ⟨u, i, m1, ⟨x, y ++ [.invoked ctl none], ?_⟩, ?_⟩
          · simp only [hl, hx]; simp
          · rw [ha n (by omega)]; simp only [hl, hrs]; exact m3
        · exact .inr ⟨m1, by rw [ha n (by omega)]; exact m2⟩
      · rename_i hlt
        have : n = b.calls.length := by
          rcases Nat.lt_or_ge b.calls.length n with h' | h'
          · have : 1 ≤ n - b.calls.length := by omega
            rw [List.getElem?_eq_none (by simpa using this)] at hn
            cases hn
          · omega
        subst this
        obtain ⟨m1, m2⟩ := h.future _ (Nat.le_refl _)
        have m3 : (b.answers.filter (·.1 == b.calls.length)) = [] := by simpa [answersOf] using m2
        refine .inr ⟨m1, ?_⟩
        rcases hr with rfl | rfl
        · left; simp [answersOf, m3]
        · right; simp [answersOf, m3]
    · simp only [List.length_append, List.length_singleton] at hn
      obtain ⟨m1, m2⟩ := h.future n (by omega)
      exact ⟨m1, by rw [ha n (by omega)]; exact m2⟩

theorem Reachable.client {cfg : Config} {c : Client} {b : Book} (h : Reachable cfg c b) : Client5.Reachable cfg c := by
  induction h with
  | new => exact .new
  | step _ he hs ih => exact .step ih he hs

theorem reachable_book {cfg : Config} {c : Client} {b : Book} (h : Reachable cfg c b) : BookInv c b := by
  induction h with
  | new => exact ⟨by simp, by simp [answersOf]⟩
  | @step c c' b e hr he hs ih =>
    by_cases hi : ∃ ctl, e = .invoke ctl
    · obtain ⟨ctl, rfl⟩ := hi
      simp only [Client5.step] at hs
      cases hs
      exact ih.invoke (reachable_held hr.client) ctl
    · obtain ⟨new, hl⟩ := step_log he hs
      have hb : b.next c e c' = new.foldl Book.effect b := by
        have : b.event c e = b := by
          cases e with
          | invoke ctl => exact absurd ⟨ctl, rfl⟩ hi
          | _ => rfl
        simp only [Book.next, hl, List.drop_left, this]
      rw [hb]
      exact ih.log hl

end Mqtt.ManualAck5
