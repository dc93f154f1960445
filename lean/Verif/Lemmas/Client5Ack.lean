import Verif.Spec.Stamps5
import Verif.Lemmas.Client5Origin
import Verif.Lemmas.Client5Timer

/-!
Ack timeouts of the MQTT 5 client: when operations are sent and time out.
-/
namespace Mqtt.Client5

open Mqtt.V5

/-! ## What the moves do to operations in flight -/

/-- Effects that say nothing about when operations in flight are sent or time out. -/
def Effect.idle : Effect → Bool
  | .encoded _ p => !requiresAck p
  | .completed _ p e _ => !(requiresAck p && e == .timeout)
  | .connected _ => false
  | .disconnected => false
  | _ => true

/-- Some operations may leave. -/
structure Fewer (s s' : OpState) : Prop where
  ops : ∀ op ∈ s'.unacked, op ∈ s.unacked
  heap : ∀ u ∈ s'.timeouts, u ∈ s.timeouts
  stay : ∀ op ∈ s'.unacked, op.uid ∈ s.timeouts → op.uid ∈ s'.timeouts
  table : (∀ op ∈ s.unacked, s.table.get (packetId op.packet) = some op.uid) →
    ∀ op ∈ s'.unacked, s'.table.get (packetId op.packet) = some op.uid

inductive AckMove (g : Readings) (cfg : Config) (s s' : OpState) (new : List Effect) : Prop where
  | fewer : Fewer s s' → (∀ e ∈ new, e.idle = true) → AckMove g cfg s s' new
  | forgot (op : Op) : new = [] → op ∈ s.unacked → s.table.get (packetId op.packet) = none → s'.unacked = s.unacked →
      (∀ u ∈ s'.timeouts, u ∈ s.timeouts) → AckMove g cfg s s' new
  | sent (op : Op) (now : Nat) : s.current = some op → requiresAck op.packet = true → g.clock now →
      new = [.encoded op.uid op.packet] → (∃ o, s'.unacked = s.unacked ++ [o] ∧ o.uid = op.uid ∧
        o.packet = op.packet ∧ o.ackTimeoutSeconds = op.ackTimeoutSeconds ∧ o.deadline = ackDeadline cfg op now) →
      s'.timeouts = s.timeouts ++ [op.uid] → s'.table = s.table.set (packetId op.packet) op.uid →
      AckMove g cfg s s' new
  | timed (op : Op) (now : Nat) : op ∈ s.unacked → op.uid ∈ s.timeouts → g.clock now → op.deadline ≤ now →
      new = [.completed op.uid op.packet .timeout none] → Fewer s s' → AckMove g cfg s s' new
  | ended : s'.timeouts = [] → (s'.unacked = [] ∨ ∃ l, new = l ++ [.disconnected]) →
      (∀ e ∈ new, (∀ u p, e ≠ .encoded u p) ∧ ∀ u p a, e ≠ .completed u p .timeout a) → AckMove g cfg s s' new

theorem Fewer.same {s s' : OpState} (h1 : s'.unacked = s.unacked) (h2 : s'.timeouts = s.timeouts)
    (h3 : s'.table = s.table) : Fewer s s' :=
  ⟨fun _ h => h1 ▸ h, fun _ h => h2 ▸ h, fun _ _ h => h2 ▸ h, fun h o ho => by rw [h3]; exact h o (h1 ▸ ho)⟩

theorem invalid_error {cfg : Config} {c : Client} {p : Outgoing} {e : Error} (h : c.invalid cfg p = some e) :
    e ≠ .timeout := by
  rintro rfl
  simp only [Client.invalid] at h
  repeat' split at h
  all_goals cases h

/-- An operation on the heap of timeouts that is not completed stays there. -/
theorem stay_complete {s : OpState} {c : Client} (hh : HeldInv c) {ops : List Op} {op : Op} (h : op ∈ c.ops.unacked)
    (hd : ∀ o ∈ ops, o ∈ c.ops.queued ∨ o ∈ c.ops.current.toList ∨ o ∈ c.ops.writing) (hs : op.uid ∈ s.timeouts) :
    op.uid ∈ s.timeouts.filter (fun u => !(ops.map (·.uid)).contains u) := by
  rw [List.mem_filter]
  refine ⟨hs, ?_⟩
  simp only [Bool.not_eq_true', List.contains_eq_mem, decide_eq_false_iff_not, List.mem_map, not_exists, not_and]
  intro o ho hu
  have hone := hh.once op.uid
  unfold places OpState.held born at hone
  simp only [List.map_append, List.count_append] at hone
  have h1 : 0 < (c.ops.unacked.map (·.uid)).count op.uid := List.count_pos_iff.2 (List.mem_map.2 ⟨op, h, rfl⟩)
  have h2 : ∀ l : List Op, o ∈ l → 0 < (l.map (·.uid)).count op.uid := fun l hl =>
    List.count_pos_iff.2 (List.mem_map.2 ⟨o, hl, hu⟩)
  rcases hd o ho with hx | hx | hx
  · have := h2 _ hx; split at hone <;> omega
  · have := h2 _ hx; split at hone <;> omega
  · have := h2 _ hx; split at hone <;> omega

theorem table_take {c : Client} (hh : HeldInv c) {op : Op} {rest : List Op} {uid id : Nat}
    (hu : takeUid uid c.ops.unacked = some (op, rest))
    (ht : c.ops.table.get id = some uid ∨ id = packetId op.packet) :
    (∀ o ∈ rest, o ∈ c.ops.unacked) ∧ (∀ o ∈ rest, o.uid ≠ op.uid) ∧
    ((∀ o ∈ c.ops.unacked, c.ops.table.get (packetId o.packet) = some o.uid) →
      ∀ o ∈ rest, (c.ops.table.del id).get (packetId o.packet) = some o.uid) := by
  obtain ⟨x, y, h1, h2, _⟩ := takeUid_split hu
  have huid := takeUid_uid hu
  have hne : ∀ o ∈ rest, o.uid ≠ op.uid := by
    intro o ho hx
    have hone := hh.unackedOnce op.uid
    rw [h1] at hone
    have : 0 < (rest.map (·.uid)).count op.uid := List.count_pos_iff.2 (List.mem_map.2 ⟨o, ho, hx⟩)
    rw [h2] at this
    simp only [List.map_append, List.map_cons, List.count_append, List.count_cons_self] at hone this
    omega
  have hsub : ∀ o ∈ rest, o ∈ c.ops.unacked := by
    intro o ho
    rw [h2] at ho; rw [h1]
    rcases List.mem_append.1 ho with ho | ho
    · simp [ho]
    · simp [ho]
  refine ⟨hsub, hne, fun hg o ho => ?_⟩
  have hgo := hg o (hsub o ho)
  rw [AMap.get_del]
  split
  · rename_i he
    exfalso
    rw [he] at hgo
    have : c.ops.table.get id = some op.uid := by
      rcases ht with ht | ht
      · rw [ht, huid]
      · rw [ht]; exact hg op (by rw [h1]; simp)
    rw [this] at hgo
    exact hne o ho (Option.some.inj hgo).symm
  · exact hgo

theorem Fewer.take {c : Client} (hh : HeldInv c) {op : Op} {rest : List Op} {uid id : Nat} {e : Error}
    {a : Option Received}
    (hu : takeUid uid c.ops.unacked = some (op, rest))
    (ht : c.ops.table.get id = some uid ∨ id = packetId op.packet) :
    Fewer c.ops (({ c.ops with unacked := rest, table := c.ops.table.del id } : OpState).complete op e a) := by
  obtain ⟨h1, h2, h3⟩ := table_take hh hu ht
  refine ⟨h1, fun u hx => (List.mem_filter.1 hx).1, fun o ho hx => ?_, h3⟩
  exact List.mem_filter.2 ⟨hx, by simpa using h2 o ho⟩

theorem Fewer.completeAll {c : Client} (hh : HeldInv c) {s : OpState} {ops : List Op} {e : Error}
    (h1 : s.unacked = c.ops.unacked) (h2 : s.timeouts = c.ops.timeouts) (h3 : s.table = c.ops.table)
    (hd : ∀ o ∈ ops, o ∈ c.ops.queued ∨ o ∈ c.ops.current.toList ∨ o ∈ c.ops.writing) :
    Fewer c.ops (s.completeAll ops e) := by
  rw [completeAll_eq]
  refine ⟨fun o ho => h1 ▸ ho, fun u hu => h2 ▸ (List.mem_filter.1 hu).1, fun o ho hs => ?_, fun hg o ho => ?_⟩
  · exact stay_complete hh (h1 ▸ ho) hd (h2 ▸ hs)
  · simp only [h3]; exact hg o (h1 ▸ ho)

theorem idle_completions {ops : List Op} {e : Error} (h : e ≠ .timeout ∨ ∀ op ∈ ops, requiresAck op.packet = false) :
    ∀ f ∈ completions ops e, f.idle = true := by
  intro f hf
  simp only [completions, List.mem_map] at hf
  obtain ⟨op, ho, rfl⟩ := hf
  simp only [Effect.idle]
  rcases h with h | h
  · simp [h]
  · simp [h op ho]

/-- Effects with which operations do not time out. -/
def Effect.Calm (e : Effect) : Prop := (∀ u p, e ≠ .encoded u p) ∧ ∀ u p a, e ≠ .completed u p .timeout a

theorem calm_completions {ops : List Op} {e : Error} (h : e ≠ .timeout) : ∀ f ∈ completions ops e, f.Calm := by
  intro f hf
  simp only [completions, List.mem_map] at hf
  obtain ⟨op, ho, rfl⟩ := hf
  exact ⟨by simp, fun u p a hx => by injection hx with _ _ hx _; exact h hx⟩

theorem calm_append {l : List Effect} {e : Effect} (h : ∀ f ∈ l, f.Calm) (he : e.Calm) : ∀ f ∈ l ++ [e], f.Calm := by
  intro f hf
  rcases List.mem_append.1 hf with hf | hf
  · exact h f hf
  · cases List.mem_singleton.1 hf; exact he

theorem move_ack {g : Readings} {cfg : Config} {c c' : Client} (hh : HeldInv c) (hv : LiveInv c)
    (m : MoveG g cfg c c') : ∃ new, c'.ops.log = c.ops.log ++ new ∧ AckMove g cfg c.ops c'.ops new := by
  have nothing : ∀ {s : OpState}, s.log = c.ops.log → s.unacked = c.ops.unacked → s.timeouts = c.ops.timeouts →
      s.table = c.ops.table → ∃ new, s.log = c.ops.log ++ new ∧ AckMove g cfg c.ops s new :=
    fun h0 h1 h2 h3 => ⟨[], by simp [h0], .fewer (.same h1 h2 h3) (by simp)⟩
  cases m with
  | control k hk => exact nothing rfl rfl rfl rfl
  | accept p t hp hs hst => exact ⟨[_], rfl, .fewer (.same rfl rfl rfl) (by simp [Effect.idle])⟩
  | reject p e hp he => exact ⟨[_, _], rfl, .fewer (.same rfl rfl rfl) (by simp [Effect.idle, he])⟩
  | push p hp hst => exact nothing rfl rfl rfl rfl
  | publish v a hst =>
    obtain ⟨s1, ctl, hs, hl, hx⟩ := onPublish_queue c.ops v a
    rcases hx with hx | hx
    · exact ⟨_, by rw [hx]; exact hl, .fewer (.same (by rw [hx]; exact hs.unacked) (by rw [hx]; exact hs.timeouts)
        (by rw [hx]; exact hs.table)) (by simp [Effect.idle])⟩
    · exact ⟨[.delivered v ctl, .pubackQueued s1.nextUid v.packetId],
        by rw [hx]; simp [OpState.queuePuback, hl], .fewer (.same (by rw [hx]; exact hs.unacked)
          (by rw [hx]; exact hs.timeouts) (by rw [hx]; exact hs.table)) (by simp [Effect.idle])⟩
  | invoke ctl hst =>
    rcases invoke_queue c.ops ctl with ⟨id, s1, _, hs, hl, _, _, _, hx⟩ | ⟨_, hs, hl, _⟩
    · exact ⟨[.invoked ctl (some id), .pubackQueued s1.nextUid id],
        by rw [hx]; simp [OpState.queuePuback, hl], .fewer (.same (by rw [hx]; exact hs.unacked)
          (by rw [hx]; exact hs.timeouts) (by rw [hx]; exact hs.table)) (by simp [Effect.idle])⟩
    · exact ⟨_, hl, .fewer (.same hs.unacked hs.timeouts hs.table) (by simp [Effect.idle])⟩
  | token id hst => exact ⟨[_], rfl, .fewer (.same rfl rfl rfl) (by simp [Effect.idle])⟩
  | invalid op rest e hq he =>
    refine ⟨[_], rfl, .fewer ?_ ?_⟩
    · have := Fewer.completeAll hh (s := { c.ops with queued := rest }) (ops := [op]) (e := e) rfl rfl rfl
        (by simp [hq])
      rw [OpState.completeAll] at this
      exact this
    · simp [Effect.idle, invalid_error he]
  | start op rest s ok hq hc he hst hs =>
    rcases setCurrent_cases hs with ⟨_, p, n, enc, rfl, _⟩ | ⟨_, op', n, enc, rfl, hb, _⟩
    · exact ⟨[_], rfl, .fewer (.same rfl rfl rfl) (by simp [Effect.idle])⟩
    · exact ⟨[_], rfl, .fewer (.same rfl rfl rfl) (by simp [Effect.idle])⟩
  | encode op buf buf' enc r hc he => exact nothing rfl rfl rfl rfl
  | finish op now s hc hsteps hs hg =>
    obtain ⟨_, ⟨hr, _, rfl⟩ | ⟨hr, rfl⟩⟩ := finish_cases hs
    · refine ⟨[_], rfl, .sent op now hc hr hg rfl ⟨_, rfl, by simp, by simp, ?_, ?_⟩ rfl rfl⟩
      · exact (changeStats_op _ _ _ _).2.2.2
      · exact (changeStats_op _ _ _ _).2.2.1
    · exact ⟨[_], rfl, .fewer (.same rfl rfl rfl) (by simp [Effect.idle, hr])⟩
  | write data => exact ⟨[_], rfl, .fewer (.same rfl rfl rfl) (by simp [Effect.idle])⟩
  | pinged uid => exact ⟨[_], rfl, .fewer (.same rfl rfl rfl) (by simp [Effect.idle])⟩
  | unwrite => exact nothing rfl rfl rfl rfl
  | written e =>
    refine ⟨completions c.ops.writing e, by rw [completeAll_eq], .fewer (.completeAll hh rfl rfl rfl
      fun o ho => .inr (.inr ho)) (idle_completions (.inr hv.plain))⟩
  | ack id uid op rest e a ht hu _ he => exact ⟨[_], rfl, .fewer (.take hh hu (.inl ht)) (by simp [Effect.idle, he])⟩
  | timeout op rest hu ht hn hm =>
    obtain ⟨now, hg, hd⟩ := hn
    obtain ⟨x, y, h1, _, _⟩ := takeUid_split hu
    exact ⟨[_], rfl, .timed op now (by rw [h1]; simp) hm hg hd rfl (.take hh hu (.inr rfl))⟩
  | forget uid h =>
    obtain ⟨op, rest, hu, ht⟩ := h
    obtain ⟨x, y, h1, _, _⟩ := takeUid_split hu
    exact ⟨[], by simp, .forgot op rfl (by rw [h1]; simp) ht rfl fun u hu => (List.mem_filter.1 hu).1⟩
  | fresh hq => exact nothing rfl rfl rfl rfl
  | disconnection e st hst =>
    exact ⟨_, onDisconnection_log cfg c.ops, .ended (by simp) (.inr ⟨_, rfl⟩) (calm_append (calm_completions (by decide)) ⟨by simp, by simp⟩)⟩
  | connection settings now hst =>
    simp only [Client.toConnected]
    refine ⟨_, onConnection_log cfg settings c.ops, .ended ?_ (.inl (by simp))
      (calm_append (calm_completions (by decide)) ⟨by simp, by simp⟩)⟩
    have := (hv.bare (hv.down (.inr hst))).2
    simp [this]
  | reset hst =>
    simp only [Client.toStopped]
    exact ⟨_, resetAll_log c.ops .userStop, .ended (by simp) (.inl (by simp)) (calm_completions (by decide))⟩
  | terminate hst hd =>
    simp only [Client.toTerminated]
    exact ⟨_, resetAll_log c.ops .terminated, .ended (by simp) (.inl (by simp)) (calm_completions (by decide))⟩

/-! ## Where the ack timeouts come from -/

/-- Where an operation held after a move has its ack timeout from. -/
def Lent (g : Readings) (c c' : Client) (op : Op) : Prop :=
  (∃ o ∈ c.ops.held, o.uid = op.uid ∧ isUser o.packet = isUser op.packet ∧
    o.ackTimeoutSeconds = op.ackTimeoutSeconds) ∨
  isUser op.packet = false ∨
  ∃ p q, g.asked p op.ackTimeoutSeconds ∧ c'.ops.log = c.ops.log ++ [.submitted op.uid q]

theorem Lent.mem {g : Readings} {c c' : Client} {op : Op} (h : op ∈ c.ops.held) : Lent g c c' op :=
  .inl ⟨op, h, rfl, rfl, rfl⟩

theorem markDisconnected_seconds (op : Op) :
    (markDisconnected op).ackTimeoutSeconds = op.ackTimeoutSeconds := by
  unfold markDisconnected
  split
  · split <;> rfl
  · rfl

theorem lent_changeStatsAll {g : Readings} {c c' : Client} {ops : List Op} {st : Stats} {a b : Bool} (h : ∀ o ∈ ops, Lent g c c' o) :
    ∀ o ∈ (changeStatsAll st a b ops).2, Lent g c c' o := by
  intro o ho
  have h1 : (o.uid, o.packet, o.ackTimeoutSeconds) ∈ ops.map (fun op => (op.uid, op.packet, op.ackTimeoutSeconds)) := by
    rw [← changeStatsAll_map (fun op => (op.uid, op.packet, op.ackTimeoutSeconds)) (fun st op a b => by
      simp [(changeStats_op st op a b).2.2.2]) st a b ops]
    exact List.mem_map.2 ⟨o, ho, rfl⟩
  obtain ⟨o', ho', hx⟩ := List.mem_map.1 h1
  simp only [Prod.mk.injEq] at hx
  have := h o' ho'
  unfold Lent at this ⊢
  rwa [hx.1, hx.2.1, hx.2.2] at this

theorem lent_queuePuback {g : Readings} {c c' : Client} {s : OpState} {id : Nat}
    (h : ∀ o ∈ s.held, Lent g c c' o) : ∀ o ∈ (s.queuePuback id).held, Lent g c c' o := by
  intro o ho
  obtain ⟨x, y, h1, h2, _⟩ := insertPuback_split (s.newOp (.puback { packetId := id })) s.queued
  simp only [OpState.held, OpState.queuePuback, h2] at ho
  simp only [OpState.held, h1] at h
  simp only [List.mem_append, List.mem_cons] at ho h
  rcases ho with (ho | rfl | ho) | ho
  · exact h o (.inl (.inl ho))
  · exact .inr (.inl rfl)
  · exact h o (.inl (.inr ho))
  · exact h o (.inr ho)

theorem move_lent {g : Readings} {cfg : Config} {c c' : Client} (m : MoveG g cfg c c') : ∀ op ∈ c'.ops.held, Lent g c c' op := by
  cases m with
  | control k hk => exact fun o ho => Lent.mem (c := c) (op := o) ho
  | accept p t hp hs hst hg =>
    intro o ho
    simp only [OpState.accept, OpState.held, List.append_assoc, List.mem_append, List.mem_singleton] at ho
    rcases ho with ho | rfl | ho
    · exact .mem (by simp [OpState.held, ho])
    · refine .inr (.inr ⟨p, withPacketId p 0, ?_, ?_⟩)
      · rw [(changeStats_op _ _ _ _).2.2.2]; exact hg
      · rw [changeStats_uid]; rfl
    · exact .mem (by simpa only [OpState.held, List.mem_append] using .inr ho)
  | reject p e hp => exact fun o ho => Lent.mem (g := g) (c := c) (op := o) ho
  | push p hp hst =>
    intro o ho
    simp only [OpState.pushFront, OpState.held, List.cons_append, List.mem_cons] at ho
    rcases ho with rfl | ho
    · refine .inr (.inl ?_)
      rcases hp with rfl | hp | hp
      · rfl
      · cases p <;> simp [isConnect] at hp; rfl
      · cases p <;> simp [isDisconnect] at hp; rfl
    · exact .mem ho
  | publish v a hst =>
    obtain ⟨s1, ctl, hs, hl, hx⟩ := onPublish_queue c.ops v a
    have h1 : ∀ c', ∀ o ∈ s1.held, Lent g c c' o := by rw [held_sameOps hs]; exact fun _ _ => .mem
    rcases hx with hx | hx
    · rw [hx]; exact h1 _
    · rw [hx]; exact lent_queuePuback (h1 _)
  | invoke ctl hst =>
    rcases invoke_queue c.ops ctl with ⟨id, s1, _, hs, hl, _, _, _, hx⟩ | ⟨_, hs, hl, _⟩
    · have h1 : ∀ c', ∀ o ∈ s1.held, Lent g c c' o := by rw [held_sameOps hs]; exact fun _ _ => .mem
      rw [hx]; exact lent_queuePuback (h1 _)
    · rw [held_sameOps hs]; exact fun o ho => Lent.mem (c := c) (op := o) ho
  | token id hst => exact fun o ho => Lent.mem (c := c) (op := o) ho
  | invalid op rest e hq he =>
    refine fun o ho => .mem ?_
    simp only [OpState.held, hq, List.cons_append]
    exact List.mem_cons_of_mem _ ho
  | start op rest s ok hq hc he hst hs =>
    intro o ho
    rcases setCurrent_cases hs with ⟨_, p, n, enc, rfl, _⟩ | ⟨_, op', n, enc, rfl, hb, _⟩
    · refine .mem ?_
      simp only [OpState.held, hq, List.cons_append]
      exact List.mem_cons_of_mem _ ho
    · simp only [OpState.held, Option.toList_some, List.mem_append, List.mem_singleton] at ho
      rcases ho with ho | rfl | ho | ho
      · exact .mem (by simp [OpState.held, hq, ho])
      · refine .inl ⟨op, by simp [OpState.held, hq], (bind_uid hb).symm, ?_, ?_⟩
        rcases bind_cases hb with ⟨_, _, rfl⟩ | ⟨_, id, _, _, rfl⟩
        · rfl
        · simp
        · rcases bind_cases hb with ⟨_, _, rfl⟩ | ⟨_, id, _, _, rfl⟩
          · rfl
          · rfl
      · exact .mem (by simp [OpState.held, ho])
      · exact .mem (by simp [OpState.held, ho])
  | encode op buf buf' enc r hc he => exact fun o ho => Lent.mem (c := c) (op := o) ho
  | finish op now s hc hsteps hs =>
    obtain ⟨_, ⟨hr, hid, rfl⟩ | ⟨hr, rfl⟩⟩ := finish_cases hs
    · intro o ho
      simp only [OpState.finishAck, OpState.held, List.mem_append, Option.mem_toList, List.mem_singleton] at ho
      rcases ho with ho | ho | ho | ho | rfl
      · exact .mem (by simp [OpState.held, ho])
      · cases ho
      · exact .mem (by simp [OpState.held, ho])
      · exact .mem (by simp [OpState.held, ho])
      · exact .inl ⟨op, by simp [OpState.held, hc], by simp, by simp, by rw [(changeStats_op _ _ _ _).2.2.2]⟩
    · intro o ho
      simp only [OpState.finishWrite, OpState.held, List.mem_append, Option.mem_toList, List.mem_singleton] at ho
      rcases ho with ho | ho | (ho | rfl) | ho
      · exact .mem (by simp [OpState.held, ho])
      · cases ho
      · exact .mem (by simp [OpState.held, ho])
      · exact .mem (by simp [OpState.held, hc])
      · exact .mem (by simp [OpState.held, ho])
  | write data => exact fun o ho => Lent.mem (c := c) (op := o) ho
  | pinged uid => exact fun o ho => Lent.mem (c := c) (op := o) ho
  | unwrite => exact fun o ho => Lent.mem (c := c) (op := o) ho
  | written e =>
    rw [completeAll_eq]
    refine fun o ho => .mem ?_
    simp only [OpState.held, List.mem_append] at ho ⊢
    rcases ho with ho | ho | ho | ho
    · exact .inl ho
    · exact .inr (.inl ho)
    · cases ho
    · exact .inr (.inr (.inr ho))
  | ack id uid op rest e a ht hu =>
    obtain ⟨x, y, h1, h2, _⟩ := takeUid_split hu
    refine fun o ho => .mem ?_
    simp only [OpState.complete, OpState.held, h1, h2, List.mem_append, List.mem_cons] at ho ⊢
    rcases ho with ho | ho | ho | ho | ho
    · exact .inl ho
    · exact .inr (.inl ho)
    · exact .inr (.inr (.inl ho))
    · exact .inr (.inr (.inr (.inl ho)))
    · exact .inr (.inr (.inr (.inr (.inr ho))))
  | timeout op rest hu ht =>
    obtain ⟨x, y, h1, h2, _⟩ := takeUid_split hu
    refine fun o ho => .mem ?_
    simp only [OpState.complete, OpState.held, h1, h2, List.mem_append, List.mem_cons] at ho ⊢
    rcases ho with ho | ho | ho | ho | ho
    · exact .inl ho
    · exact .inr (.inl ho)
    · exact .inr (.inr (.inl ho))
    · exact .inr (.inr (.inr (.inl ho)))
    · exact .inr (.inr (.inr (.inr (.inr ho))))
  | forget uid => exact fun o ho => Lent.mem (c := c) (op := o) ho
  | fresh hq => exact fun o ho => Lent.mem (c := c) (op := o) ho
  | disconnection e st hst =>
    intro o ho
    simp only [OpState.held, onDisconnection_queued, onDisconnection_current, onDisconnection_writing,
      onDisconnection_unacked, keep, keepUnacked, List.mem_append, List.mem_filter, List.mem_map,
      Option.toList_none, List.not_mem_nil, false_or] at ho
    rcases ho with ⟨ho | ho, _⟩ | ⟨⟨o', ho', rfl⟩, _⟩
    · exact .mem (by simpa [OpState.held] using .inr (.inl (by simpa using ho)))
    · exact .mem (by simp [OpState.held, ho])
    · exact .inl ⟨o', by simp [OpState.held, ho'], by simp, isUser_congr (by simp), by simp [markDisconnected_seconds]⟩
  | connection settings now hst =>
    intro o ho
    simp only [Client.toConnected, OpState.held, List.mem_append, onConnection_current, onConnection_writing,
      onConnection_unacked, List.not_mem_nil, or_false] at ho
    rcases ho with ho | ho | ho
    · simp only [onConnection_queued] at ho
      refine lent_changeStatsAll (fun o' ho' => ?_) o ho
      refine .mem ?_
      unfold requeued at ho'
      split at ho'
      · simp only [List.mem_append, List.mem_filter] at ho'
        simp only [OpState.held, List.mem_append]
        rcases ho' with ho' | ho' | ho'
        · exact .inr (.inr (.inr ho'.1))
        · exact .inr (.inr (.inr ho'.1))
        · exact .inl ho'
      · simp only [keep, List.mem_append, List.mem_filter] at ho'
        simp only [OpState.held, List.mem_append]
        rcases ho' with ho' | ho'
        · exact .inr (.inr (.inr ho'.1))
        · exact .inl ho'
    · exact .mem (by simpa [OpState.held] using .inr (.inl (by simpa using ho)))
    · exact .mem (by simp [OpState.held, ho])
  | reset hst =>
    refine fun o ho => .mem ?_
    simp only [Client.toStopped, OpState.held, resetAll_queued, resetAll_current, resetAll_writing,
      resetAll_unacked, List.nil_append, List.append_nil] at ho
    simpa [OpState.held] using .inr (.inl (by simpa using ho))
  | terminate hst hd =>
    refine fun o ho => .mem ?_
    simp only [Client.toTerminated, OpState.held, resetAll_queued, resetAll_current, resetAll_writing,
      resetAll_unacked, List.nil_append, List.append_nil] at ho
    simpa [OpState.held] using .inr (.inl (by simpa using ho))

end Mqtt.Client5
