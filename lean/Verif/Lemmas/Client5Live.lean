import Verif.Lemmas.Client5Log
import Verif.Spec.Client5

/-!
The packet id table of the MQTT 5 client: it is empty without an MQTT connection, and it only refers to
operations waiting for an acknowledgement, by the packet id they carry.
-/
namespace Mqtt.Client5

open Mqtt.V5

/-! ### Kinds of packets -/

@[simp] theorem withPacketId_requiresAck (p : Outgoing) (id : Nat) : requiresAck (withPacketId p id) = requiresAck p := by
  cases p <;> rfl
@[simp] theorem withPacketId_isUser (p : Outgoing) (id : Nat) : isUser (withPacketId p id) = isUser p := by
  cases p <;> rfl
@[simp] theorem withPacketId_isQos1 (p : Outgoing) (id : Nat) : isQos1 (withPacketId p id) = isQos1 p := by
  cases p <;> rfl
@[simp] theorem withPacketId_isPublish (p : Outgoing) (id : Nat) : isPublish (withPacketId p id) = isPublish p := by
  cases p <;> rfl
@[simp] theorem withPacketId_twice (p : Outgoing) (a b : Nat) :
    withPacketId (withPacketId p a) b = withPacketId p b := by cases p <;> rfl
theorem withPacketId_packetId (p : Outgoing) (id : Nat) :
    packetId (withPacketId p id) = if isUser p then id else 0 := by cases p <;> rfl

theorem requiresAck_user {p : Outgoing} (h : requiresAck p = true) : isUser p = true := by
  cases p <;> simp [requiresAck, isUser] at *
theorem isQos1_requiresAck {p : Outgoing} (h : isQos1 p = true) : requiresAck p = true := by
  cases p <;> simp_all [isQos1, requiresAck]
theorem isQos1_publish {p : Outgoing} (h : isQos1 p = true) : isPublish p = true := by
  cases p <;> simp_all [isQos1, isPublish]

@[simp] theorem markDisconnected_requiresAck (op : Op) :
    requiresAck (markDisconnected op).packet = requiresAck op.packet := by
  unfold markDisconnected
  split
  · rename_i v h
    split
    · simp [h, requiresAck]
    · simp
  · simp
@[simp] theorem markDisconnected_isUser (op : Op) : isUser (markDisconnected op).packet = isUser op.packet := by
  unfold markDisconnected
  split
  · rename_i v h
    split
    · simp [h, isUser]
    · simp
  · simp
@[simp] theorem markDisconnected_isQos1 (op : Op) : isQos1 (markDisconnected op).packet = isQos1 op.packet := by
  unfold markDisconnected
  split
  · rename_i v h
    split
    · simp [h, isQos1]
    · simp
  · simp
theorem markDisconnected_packetId (op : Op) : packetId (markDisconnected op).packet =
    if isQos1 op.packet then packetId op.packet else 0 := by
  unfold markDisconnected
  split
  · rename_i v h
    split
    · rename_i hq
      simp only [h, isQos1, hq, if_true]; rfl
    · rename_i hq
      simp only [h, isQos1]
      rw [if_neg hq]; rfl
  · rename_i p h
    rw [withPacketId_packetId]
    have : isQos1 op.packet = false := by
      cases hp : op.packet <;> simp [isQos1]
      exact absurd hp (h _)
    simp [this]

/-! ### The connection in the log -/

/-- An effect that begins or ends a connection. -/
def Effect.phase : Effect → Bool
  | .connected _ => true
  | .disconnected => true
  | _ => false

theorem live_append {l new : List Effect} (h : ∀ e ∈ new, e.phase = false) : live (l ++ new) = live l := by
  unfold live
  rw [List.foldl_append]
  generalize List.foldl _ false l = b
  induction new generalizing b with
  | nil => rfl
  | cons e new ih =>
    rw [List.foldl_cons]
    have he := h e (by simp)
    have hn : ∀ e ∈ new, e.phase = false := fun x hx => h x (by simp [hx])
    rw [ih hn]
    cases e <;> simp [Effect.phase] at he <;> rfl

theorem completions_phase (ops : List Op) (e : Error) : ∀ x ∈ completions ops e, x.phase = false := by
  simp [completions, Effect.phase]

@[simp] theorem live_completions (l : List Effect) (ops : List Op) (e : Error) :
    live (l ++ completions ops e) = live l := live_append (completions_phase ops e)

@[simp] theorem live_connected (l : List Effect) (s : Settings) : live (l ++ [.connected s]) = true := by
  unfold live; rw [List.foldl_append]; rfl
@[simp] theorem live_disconnected (l : List Effect) : live (l ++ [.disconnected]) = false := by
  unfold live; rw [List.foldl_append]; rfl

theorem live_one (l : List Effect) (e : Effect) (h : e.phase = false) : live (l ++ [e]) = live l :=
  live_append (by simpa using h)

/-! ### Packet ids -/

theorem nextPacketId_range {id : Nat} (h : 1 ≤ id ∧ id ≤ 65535) : 1 ≤ nextPacketId id ∧ nextPacketId id ≤ 65535 := by
  unfold nextPacketId
  split <;> omega

theorem findId_range {t : AMap Nat Nat} {fuel start id : Nat} (hs : 1 ≤ start ∧ start ≤ 65535)
    (h : findId t fuel start = some id) : (1 ≤ id ∧ id ≤ 65535) ∧ t.get id = none := by
  induction fuel generalizing start with
  | zero => cases h
  | succ fuel ih =>
    rw [findId] at h
    split at h
    · exact ih (nextPacketId_range hs) h
    · rename_i hn
      cases h
      exact ⟨hs, by simpa using hn⟩

/-- Binding a packet id. -/
theorem bind_spec {s s' : OpState} {op op' : Op} (h : s.bind op = some (s', op'))
    (hn : 1 ≤ s.nextId ∧ s.nextId ≤ 65535) (hid : packetId op.packet ≤ 65535) :
    (1 ≤ s'.nextId ∧ s'.nextId ≤ 65535) ∧ (requiresAck op.packet = true → 1 ≤ packetId op'.packet) ∧
      packetId op'.packet ≤ 65535 ∧
      (op' = op ∨ needsId op.packet = true ∧ op' = { op with packet := withPacketId op.packet (packetId op'.packet) } ∧
        s.table.get (packetId op'.packet) = none) := by
  rcases bind_cases h with ⟨h1, rfl, rfl⟩ | ⟨h1, id, h2, rfl, rfl⟩
  · refine ⟨hn, fun hr => ?_, hid, .inl rfl⟩
    simp [needsId, hr] at h1
    omega
  · obtain ⟨h3, h4⟩ := findId_range hn h2
    have hu : isUser op.packet = true := by
      simp [needsId] at h1
      exact requiresAck_user h1.1
    simp only [withPacketId_packetId, hu, if_true]
    exact ⟨nextPacketId_range h3, fun _ => h3.1, h3.2, .inr ⟨h1, by simp, h4⟩⟩

theorem setCurrent_nextId {s s' : OpState} {op : Op} {ok : Bool} (h : s.setCurrent op = .ok (s', ok))
    (hn : 1 ≤ s.nextId ∧ s.nextId ≤ 65535) : 1 ≤ s'.nextId ∧ s'.nextId ≤ 65535 := by
  unfold OpState.setCurrent at h
  cases hb : s.bind op with
  | none => rw [hb] at h; cases h; exact hn
  | some r =>
    rcases r with ⟨s1, op1⟩
    rw [hb] at h
    have h1 : 1 ≤ s1.nextId ∧ s1.nextId ≤ 65535 := by
      rcases bind_cases hb with ⟨_, rfl, _⟩ | ⟨_, id, h2, rfl, _⟩
      · exact hn
      · exact nextPacketId_range (findId_range hn h2).1
    simp only at h
    split at h <;> cases h <;> exact h1

/-! ### The invariant -/

structure LiveInv (c : Client) : Prop where
  up : c.ctl.state = .connected → live c.ops.log = true
  down : (c.ctl.state.quiet = true ∨ c.ctl.state = .mqttConnect) → live c.ops.log = false
  cur : live c.ops.log = false → ∀ op, c.ops.current = some op → isUser op.packet = false
  bare : live c.ops.log = false → c.ops.table = [] ∧ c.ops.timeouts = []
  tab : ∀ id uid, c.ops.table.get id = some uid → ∃ op ∈ c.ops.unacked, op.uid = uid ∧ packetId op.packet = id
  tmo : ∀ uid ∈ c.ops.timeouts, ∃ op ∈ c.ops.unacked, op.uid = uid
  acked : ∀ op ∈ c.ops.unacked, requiresAck op.packet = true
  plain : ∀ op ∈ c.ops.writing, requiresAck op.packet = false
  curId : ∀ op, c.ops.current = some op → requiresAck op.packet = true → 1 ≤ packetId op.packet
  ids : ∀ op ∈ c.ops.held, packetId op.packet ≤ 65535
  nonzero : live c.ops.log = true → ∀ op ∈ c.ops.unacked, 1 ≤ packetId op.packet
  next : 1 ≤ c.ops.nextId ∧ c.ops.nextId ≤ 65535

theorem live_new (cfg : Config) : LiveInv (Client.new cfg) := by
  constructor <;> simp [Client.new, live, OpState.held]

/-- The parts the invariant reads that do not concern the state, the log and the queue are the same. -/
theorem LiveInv.queue {c : Client} (h : LiveInv c) {s : OpState} {k : Control} (hk : Ctl c.ctl k)
    (hd : k.state.quiet = true ∨ k.state = .mqttConnect → c.ctl.state.quiet = true ∨ c.ctl.state = .mqttConnect)
    (hl : live s.log = live c.ops.log) (h1 : s.current = c.ops.current) (h2 : s.writing = c.ops.writing)
    (h3 : s.unacked = c.ops.unacked) (h4 : s.table = c.ops.table) (h5 : s.timeouts = c.ops.timeouts)
    (h6 : s.nextId = c.ops.nextId) (hq : ∀ op ∈ s.queued, packetId op.packet ≤ 65535) : LiveInv ⟨s, k⟩ := by
  constructor
  · intro hs; rw [hl]; exact h.up (hk.up hs).1
  · intro hs; rw [hl]; exact h.down (hd hs)
  · simp only [hl, h1]; exact h.cur
  · simp only [hl, h4, h5]; exact h.bare
  · simp only [h4, h3]; exact h.tab
  · simp only [h5, h3]; exact h.tmo
  · simp only [h3]; exact h.acked
  · simp only [h2]; exact h.plain
  · simp only [h1]; exact h.curId
  · intro op ho
    simp only [OpState.held, List.mem_append, h1, h2, h3] at ho
    have := h.ids op
    simp only [OpState.held, List.mem_append] at this
    rcases ho with ho | ho
    · exact hq op ho
    · exact this (.inr ho)
  · simp only [hl, h3]; exact h.nonzero
  · simp only [h6]; exact h.next

theorem LiveInv.queuedIds {c : Client} (h : LiveInv c) : ∀ op ∈ c.ops.queued, packetId op.packet ≤ 65535 :=
  fun op ho => h.ids op (by simp [OpState.held, ho])

theorem live_queuePuback {s : OpState} {id : Nat} {b : Nat} (hb : ∀ op ∈ s.queued, packetId op.packet ≤ b) :
    ∀ op ∈ (s.queuePuback id).queued, packetId op.packet ≤ b := by
  intro op ho
  obtain ⟨x, y, h1, h2, _⟩ := insertPuback_split (s.newOp (.puback { packetId := id })) s.queued
  simp only [OpState.queuePuback, h2] at ho
  rw [h1] at hb
  simp only [List.mem_append, List.mem_cons] at ho hb
  rcases ho with ho | rfl | ho
  · exact hb op (.inl ho)
  · simp [OpState.newOp, packetId]
  · exact hb op (.inr ho)

/-- Operations in a list are told apart by number. -/
theorem uid_unique {ops : List Op} {a b : Op} (h : ∀ u, (ops.map (·.uid)).count u ≤ 1) (ha : a ∈ ops) (hb : b ∈ ops)
    (hu : a.uid = b.uid) : a = b := by
  induction ops with
  | nil => cases ha
  | cons o ops ih =>
    have h' : ∀ u, (ops.map (·.uid)).count u ≤ 1 := by
      intro u
      have := h u
      simp only [List.map_cons, List.count_cons] at this
      omega
    have hno : ∀ x ∈ ops, x.uid ≠ o.uid := by
      intro x hx hxo
      have := h o.uid
      simp only [List.map_cons, List.count_cons, beq_self_eq_true, if_true] at this
      have hp : 0 < (ops.map (·.uid)).count o.uid :=
        List.count_pos_iff.2 (List.mem_map.2 ⟨x, hx, hxo⟩)
      omega
    rcases List.mem_cons.1 ha with rfl | ha' <;> rcases List.mem_cons.1 hb with rfl | hb'
    · rfl
    · exact absurd hu.symm (hno b hb')
    · exact absurd hu (hno a ha')
    · exact ih h' ha' hb'

theorem HeldInv.unackedOnce {c : Client} (h : HeldInv c) (u : Nat) : (c.ops.unacked.map (·.uid)).count u ≤ 1 := by
  have := h.once u
  simp only [places, OpState.held, List.map_append, List.count_append] at this
  have hb : born c.ops.nextUid u ≤ 1 := by unfold born; split <;> omega
  omega

/-- Removing an operation waiting for an acknowledgement, with its packet id. -/
theorem LiveInv.remove {c : Client} (h : LiveInv c) (hh : HeldInv c) {op : Op} {rest : List Op} {uid id : Nat}
    {e : Error} {a : Option Received} (hu : takeUid uid c.ops.unacked = some (op, rest))
    (hid : id = packetId op.packet) :
    LiveInv ⟨({ c.ops with unacked := rest, table := c.ops.table.del id } : OpState).complete op e a, c.ctl⟩ := by
  obtain ⟨x, y, h1, h2, _⟩ := takeUid_split hu
  have hsub : ∀ o ∈ rest, o ∈ c.ops.unacked := by
    intro o ho
    rw [h2] at ho
    rw [h1]
    simp only [List.mem_append, List.mem_cons] at ho ⊢
    rcases ho with ho | ho
    · exact .inl ho
    · exact .inr (.inr ho)
  have hkeep : ∀ o ∈ c.ops.unacked, o.uid ≠ op.uid → o ∈ rest := by
    intro o ho hne
    rw [h1] at ho
    rw [h2]
    simp only [List.mem_append, List.mem_cons] at ho ⊢
    rcases ho with ho | rfl | ho
    · exact .inl ho
    · exact absurd rfl hne
    · exact .inr ho
  have hmem : op ∈ c.ops.unacked := by rw [h1]; simp
  have hl : live (c.ops.log ++ [.completed op.uid op.packet e a]) = live c.ops.log := live_one _ _ rfl
  constructor
  · intro hs; exact hl.trans (h.up hs)
  · intro hs; exact hl.trans (h.down hs)
  · intro hs; exact h.cur (hl.symm.trans hs)
  · intro hs
    obtain ⟨h3, h4⟩ := h.bare (hl.symm.trans hs)
    simp [OpState.complete, h3, h4, AMap.del]
  · intro i u ht
    simp only [OpState.complete, AMap.get_del] at ht
    split at ht
    · cases ht
    · rename_i hne
      obtain ⟨o, ho, ho1, ho2⟩ := h.tab i u ht
      refine ⟨o, hkeep o ho ?_, ho1, ho2⟩
      intro hx
      have := uid_unique hh.unackedOnce ho hmem hx
      subst this
      exact hne (by rw [← ho2, hid])
  · intro u hut
    simp only [OpState.complete, List.mem_filter, bne_iff_ne, ne_eq] at hut
    obtain ⟨o, ho, ho1⟩ := h.tmo u hut.1
    exact ⟨o, hkeep o ho (by rw [ho1]; exact hut.2), ho1⟩
  · intro o ho; exact h.acked o (hsub o ho)
  · exact h.plain
  · exact h.curId
  · intro o ho
    refine h.ids o ?_
    simp only [OpState.complete, OpState.held, List.mem_append] at ho ⊢
    rcases ho with ho | ho | ho | ho
    · exact .inl ho
    · exact .inr (.inl ho)
    · exact .inr (.inr (.inl ho))
    · exact .inr (.inr (.inr (hsub o ho)))
  · intro hs o ho; exact h.nonzero (hl.symm.trans hs) o (hsub o ho)
  · exact h.next

theorem KMove.downward {k k' : Control} (h : KMove k k') :
    k'.state.quiet = true ∨ k'.state = .mqttConnect → k.state.quiet = true ∨ k.state = .mqttConnect := by
  rintro (hq | hq)
  · exact .inl (h.ctl.quiet hq)
  · rcases h.ctl.connect hq with h | h
    · exact .inr h
    · exact .inl (by simp [h, State.quiet])

theorem live_move {cfg : Config} {c c' : Client} (hh : HeldInv c) (h : LiveInv c) (m : Move cfg c c') : LiveInv c' := by
  cases m with
  | control k hk => exact h.queue hk.ctl hk.downward rfl rfl rfl rfl rfl rfl rfl h.queuedIds
  | accept p t hp hs hst =>
    refine h.queue (.refl _) id (live_one _ _ rfl) rfl rfl rfl rfl rfl rfl ?_
    intro op ho
    simp only [OpState.accept, List.mem_append, List.mem_singleton] at ho
    rcases ho with ho | rfl
    · exact h.queuedIds op ho
    · simp only [changeStats_packet, OpState.newOp, withPacketId_packetId]
      split <;> simp
  | reject p e hp =>
    refine h.queue (.refl _) id (live_append ?_) rfl rfl rfl rfl rfl rfl h.queuedIds
    simp [Effect.phase]
  | push p hp hst =>
    refine h.queue (.refl _) id rfl rfl rfl rfl rfl rfl rfl ?_
    intro op ho
    simp only [OpState.pushFront, List.mem_cons] at ho
    rcases ho with rfl | ho
    · rcases hp with rfl | hp | hp
      · simp [OpState.newOp, packetId]
      · cases p <;> simp [isConnect] at hp; simp [OpState.newOp, packetId]
      · cases p <;> simp [isDisconnect] at hp; simp [OpState.newOp, packetId]
    · exact h.queuedIds op ho
  | publish v a hst =>
    obtain ⟨s1, ctl, hs, hl, hx⟩ := onPublish_queue c.ops v a
    have hl1 : live s1.log = live c.ops.log := by rw [hl]; exact live_one _ _ rfl
    have hq1 : ∀ op ∈ s1.queued, packetId op.packet ≤ 65535 := by rw [hs.queued]; exact h.queuedIds
    rcases hx with hx | hx
    · rw [hx]
      exact h.queue (.refl _) id hl1 hs.current hs.writing hs.unacked hs.table hs.timeouts hs.nextId hq1
    · rw [hx]
      refine h.queue (.refl _) id ?_ hs.current hs.writing hs.unacked hs.table hs.timeouts hs.nextId
        (live_queuePuback hq1)
      exact (live_one _ _ rfl).trans hl1
  | invoke ctl hst =>
    rcases invoke_queue c.ops ctl with ⟨id, s1, _, hs, hl, _, _, _, hx⟩ | ⟨_, hs, hl, _⟩
    · have hl1 : live s1.log = live c.ops.log := by rw [hl]; exact live_one _ _ rfl
      have hq1 : ∀ op ∈ s1.queued, packetId op.packet ≤ 65535 := by rw [hs.queued]; exact h.queuedIds
      rw [hx]
      refine h.queue (.refl _) (fun x => x) ?_ hs.current hs.writing hs.unacked hs.table hs.timeouts hs.nextId
        (live_queuePuback hq1)
      exact (live_one _ _ rfl).trans hl1
    · refine h.queue (.refl _) id ?_ hs.current hs.writing hs.unacked hs.table hs.timeouts hs.nextId ?_
      · rw [hl]; exact live_one _ _ rfl
      · rw [hs.queued]; exact h.queuedIds
  | token id hst =>
    exact h.queue (.refl _) (fun x => x) (live_one _ _ rfl) rfl rfl rfl rfl rfl rfl h.queuedIds
  | invalid op rest e hq he =>
    have hq' : ∀ o ∈ rest, o ∈ c.ops.queued := by rw [hq]; intro o ho; simp [ho]
    have hin : op.uid ∉ c.ops.timeouts := by
      intro hin
      obtain ⟨o, ho, hou⟩ := h.tmo _ hin
      have := hh.once op.uid
      simp only [places, OpState.held, hq, List.cons_append, List.map_cons, List.count_cons, beq_self_eq_true,
        if_true, List.map_append, List.count_append] at this
      have hp : 0 < (c.ops.unacked.map (·.uid)).count op.uid :=
        List.count_pos_iff.2 (List.mem_map.2 ⟨o, ho, hou⟩)
      have hb : born c.ops.nextUid op.uid ≤ 1 := by unfold born; split <;> omega
      omega
    refine h.queue (.refl _) (fun x => x) (live_one _ _ rfl) rfl rfl rfl rfl ?_ rfl
      (fun o ho => h.queuedIds o (hq' o ho))
    refine List.filter_eq_self.2 fun u hu => ?_
    simp only [bne_iff_ne, ne_eq]
    rintro rfl
    exact hin hu
  | start op rest s ok hq hc he hst hs =>
    have hqid := h.queuedIds op (by simp [hq])
    have hq' : ∀ o ∈ rest, packetId o.packet ≤ 65535 := fun o ho => h.queuedIds o (by simp [hq, ho])
    have hn := setCurrent_nextId hs h.next
    rcases setCurrent_cases hs with ⟨_, p, n, enc, rfl, _⟩ | ⟨_, op', n, enc, rfl, hb, _⟩
    · have h0 : LiveInv ⟨{ c.ops with
        queued := rest, nextId := c.ops.nextId, encoder := enc, log := c.ops.log ++ [.dropped op.uid p] }, c.ctl⟩ :=
        h.queue (.refl _) (fun x => x) (live_one _ _ rfl) rfl rfl rfl rfl rfl rfl hq'
      exact ⟨h0.up, h0.down, h0.cur, h0.bare, h0.tab, h0.tmo, h0.acked, h0.plain, h0.curId, h0.ids, h0.nonzero, hn⟩
    · obtain ⟨hb1, hb2, hb3, hb4⟩ := bind_spec hb h.next hqid
      have hkind : ∀ f : Outgoing → Bool, (∀ p id, f (withPacketId p id) = f p) → f op'.packet = f op.packet := by
        intro f hf
        rcases hb4 with rfl | ⟨_, hx, _⟩
        · rfl
        · rw [hx]; exact hf _ _
      have h0 : LiveInv ⟨{ c.ops with
        queued := rest, log := c.ops.log ++ [.started op'.uid op'.packet
          ((stepsBytes enc.steps).drop (stepsBytes c.ops.encoder.steps).length)] }, c.ctl⟩ :=
        h.queue (.refl _) (fun x => x) (live_one _ _ rfl) rfl rfl rfl rfl rfl rfl hq'
      refine ⟨h0.up, h0.down, ?_, h0.bare, h0.tab, h0.tmo, h0.acked, h0.plain, ?_, ?_, h0.nonzero, hn⟩
      · intro hl o ho
        cases ho
        rw [hkind isUser withPacketId_isUser]
        have hl : live c.ops.log = false := (live_one _ _ rfl).symm.trans hl
        rcases hst with hst | ⟨_, hst⟩ | ⟨_, hst⟩
        · rw [h.up hst] at hl; cases hl
        · cases hp : op.packet <;> simp [hp, isConnect] at hst; rfl
        · cases hp : op.packet <;> simp [hp, isDisconnect] at hst; rfl
      · intro o ho hr
        cases ho
        rw [hkind requiresAck withPacketId_requiresAck] at hr
        exact hb2 hr
      · intro o ho
        simp only [OpState.held, List.mem_append, Option.mem_toList, Option.some.injEq] at ho
        have := h0.ids o
        simp only [OpState.held, List.mem_append] at this
        rcases ho with ho | rfl | ho
        · exact this (.inl ho)
        · exact hb3
        · exact this (.inr (.inr ho))
  | encode op buf buf' enc r hc he =>
    exact h.queue (.refl _) (fun x => x) rfl rfl rfl rfl rfl rfl rfl h.queuedIds
  | finish op now s hc hsteps hs =>
    have hopId : packetId op.packet ≤ 65535 := h.ids op (by simp [OpState.held, hc])
    obtain ⟨_, ⟨hr, hid, rfl⟩ | ⟨hr, rfl⟩⟩ := finish_cases hs
    · have hlive : live c.ops.log = true := by
        cases hl : live c.ops.log with
        | true => rfl
        | false =>
          have := h.cur hl op hc
          rw [requiresAck_user hr] at this
          cases this
      have hl : live (c.ops.log ++ [.encoded op.uid op.packet]) = live c.ops.log := live_one _ _ rfl
      constructor
      · intro _; exact hl.trans hlive
      · intro hs
        have := h.down hs
        rw [hlive] at this; cases this
      · intro hs; rw [← hl.trans hlive]; simp [OpState.finishAck]
      · intro hs
        have : live (c.ops.log ++ [.encoded op.uid op.packet]) = false := hs
        rw [hl, hlive] at this; cases this
      · intro i u ht
        simp only [OpState.finishAck, AMap.get_set] at ht ⊢
        split at ht
        · rename_i hi
          cases ht
          exact ⟨_, List.mem_append_right _ (List.mem_singleton.2 rfl), by simp, by simp [hi]⟩
        · obtain ⟨o, ho, ho1, ho2⟩ := h.tab i u ht
          exact ⟨o, List.mem_append_left _ ho, ho1, ho2⟩
      · intro u hu
        simp only [OpState.finishAck, List.mem_append, List.mem_singleton] at hu ⊢
        rcases hu with hu | rfl
        · obtain ⟨o, ho, ho1⟩ := h.tmo u hu
          exact ⟨o, .inl ho, ho1⟩
        · exact ⟨_, .inr rfl, by simp⟩
      · intro o ho
        simp only [OpState.finishAck, List.mem_append, List.mem_singleton] at ho
        rcases ho with ho | rfl
        · exact h.acked o ho
        · simpa using hr
      · exact h.plain
      · intro o ho; cases ho
      · intro o ho
        simp only [OpState.finishAck, OpState.held, List.mem_append, Option.mem_toList, List.mem_singleton] at ho
        rcases ho with ho | ho | ho | ho | rfl
        · exact h.ids o (by simp [OpState.held, ho])
        · cases ho
        · exact h.ids o (by simp [OpState.held, ho])
        · exact h.ids o (by simp [OpState.held, ho])
        · simpa using hopId
      · intro _ o ho
        simp only [OpState.finishAck, List.mem_append, List.mem_singleton] at ho
        rcases ho with ho | rfl
        · exact h.nonzero hlive o ho
        · simp only [changeStats_packet]; omega
      · exact h.next
    · have hl : live (c.ops.log ++ [.encoded op.uid op.packet]) = live c.ops.log := live_one _ _ rfl
      constructor
      · intro hs; exact hl.trans (h.up hs)
      · intro hs; exact hl.trans (h.down hs)
      · intro _ o ho; cases ho
      · intro hs; exact h.bare (hl.symm.trans hs)
      · exact h.tab
      · exact h.tmo
      · exact h.acked
      · intro o ho
        simp only [OpState.finishWrite, List.mem_append, List.mem_singleton] at ho
        rcases ho with ho | rfl
        · exact h.plain o ho
        · exact hr
      · intro o ho; cases ho
      · intro o ho
        simp only [OpState.finishWrite, OpState.held, List.mem_append, Option.mem_toList, List.mem_singleton] at ho
        rcases ho with ho | ho | (ho | rfl) | ho
        · exact h.ids o (by simp [OpState.held, ho])
        · cases ho
        · exact h.ids o (by simp [OpState.held, ho])
        · exact hopId
        · exact h.ids o (by simp [OpState.held, ho])
      · intro hs; exact h.nonzero (hl.symm.trans hs)
      · exact h.next
  | write data => exact h.queue (.refl _) (fun x => x) (live_one _ _ rfl) rfl rfl rfl rfl rfl rfl h.queuedIds
  | pinged uid => exact h.queue (.refl _) (fun x => x) (live_one _ _ rfl) rfl rfl rfl rfl rfl rfl h.queuedIds
  | unwrite => exact h.queue (.refl _) (fun x => x) rfl rfl rfl rfl rfl rfl rfl h.queuedIds
  | written e =>
    rw [completeAll_eq]
    have hto : c.ops.timeouts.filter (fun u => !(c.ops.writing.map (·.uid)).contains u) = c.ops.timeouts := by
      refine List.filter_eq_self.2 fun u hu => ?_
      obtain ⟨o, ho, hou⟩ := h.tmo u hu
      cases hc : (c.ops.writing.map (·.uid)).contains u with
      | false => rfl
      | true =>
        have hp1 : 0 < (c.ops.writing.map (·.uid)).count u := List.count_pos_iff.2 (by simpa using hc)
        have hp : 0 < (c.ops.unacked.map (·.uid)).count u := List.count_pos_iff.2 (List.mem_map.2 ⟨o, ho, hou⟩)
        have := hh.once u
        simp only [places, OpState.held, List.map_append, List.count_append] at this
        have hb : born c.ops.nextUid u ≤ 1 := by unfold born; split <;> omega
        omega
    have h0 : LiveInv ⟨{ c.ops with
        pendingWrite := false, stats := completeStats c.ops.stats c.ops.writing,
        timeouts := c.ops.timeouts.filter (fun u => !(c.ops.writing.map (·.uid)).contains u),
        log := c.ops.log ++ completions c.ops.writing e }, c.ctl⟩ :=
      h.queue (.refl _) (fun x => x) (live_completions _ _ _) rfl rfl rfl rfl hto rfl h.queuedIds
    refine ⟨h0.up, h0.down, h0.cur, h0.bare, h0.tab, h0.tmo, h0.acked, by simp, h0.curId, ?_, h0.nonzero, h0.next⟩
    intro o ho
    simp only [OpState.held, List.mem_append] at ho
    rcases ho with ho | ho | ho | ho
    · exact h.ids o (by simp [OpState.held, ho])
    · exact h.ids o (by simpa [OpState.held] using .inr (.inl (by simpa using ho)))
    · cases ho
    · exact h.ids o (by simp [OpState.held, ho])
  | ack id uid op rest e a ht hu =>
    obtain ⟨o, ho, ho1, ho2⟩ := h.tab id uid ht
    have hop : op ∈ c.ops.unacked ∧ op.uid = uid := by
      obtain ⟨x, y, h1, _, _⟩ := takeUid_split hu
      exact ⟨by rw [h1]; simp, takeUid_uid hu⟩
    have := uid_unique hh.unackedOnce ho hop.1 (ho1.trans hop.2.symm)
    subst this
    exact h.remove hh hu ho2.symm
  | timeout op rest hu ht => exact h.remove hh hu rfl
  | forget uid =>
    refine ⟨h.up, h.down, h.cur, ?_, h.tab, ?_, h.acked, h.plain, h.curId, h.ids, h.nonzero, h.next⟩
    · intro hs
      obtain ⟨h1, h2⟩ := h.bare hs
      exact ⟨h1, by simp [h2]⟩
    · intro u hu
      exact h.tmo u (List.mem_filter.1 hu).1
  | fresh hq => exact h.queue (.refl _) (fun x => x) rfl rfl rfl rfl rfl rfl rfl h.queuedIds
  | disconnection e st hst =>
    have hl : live (c.ops.onDisconnection cfg).log = false := by
      rw [onDisconnection_log, ← List.append_assoc, live_disconnected]
    constructor
    · intro hs; rcases hst with rfl | rfl <;> cases hs
    · intro _; exact hl
    · intro _ o ho; simp at ho
    · intro _; simp
    · intro i u ht; simp at ht
    · intro u hu; simp at hu
    · intro o ho
      simp only [onDisconnection_unacked, keepUnacked, List.mem_filter, List.mem_map] at ho
      obtain ⟨⟨o', ho', rfl⟩, _⟩ := ho
      simpa using h.acked o' ho'
    · intro o ho; simp at ho
    · intro o ho; simp at ho
    · intro o ho
      simp only [OpState.held, onDisconnection_queued, onDisconnection_current, onDisconnection_writing,
        onDisconnection_unacked, keep, keepUnacked, List.mem_append, List.mem_filter, List.mem_map,
        Option.toList_none, List.not_mem_nil, false_or] at ho
      rcases ho with ⟨ho | ho, _⟩ | ⟨⟨o', ho', rfl⟩, _⟩
      · exact h.ids o (by simpa [OpState.held] using .inr (.inl (by simpa using ho)))
      · exact h.ids o (by simp [OpState.held, ho])
      · rw [markDisconnected_packetId]
        have := h.ids o' (by simp [OpState.held, ho'])
        split <;> omega
    · intro hs; simp only at hs; rw [hl] at hs; cases hs
    · simpa using h.next
  | connection settings now hst =>
    have hq := (toConnected_ctl cfg { c with ctl := { c.ctl with settings := settings } } now).2
    have h0 := h.down (.inr hst)
    have hbare := h.bare h0
    have hl : live (({ c with ctl := { c.ctl with settings := settings } } : Client).toConnected cfg now).ops.log
        = true := by
      simp only [Client.toConnected]
      rw [onConnection_log, ← List.append_assoc, live_connected]
    constructor
    · intro _; exact hl
    · intro hs
      rcases hq with hq | hq <;> rw [hq] at hs <;> simp [State.quiet] at hs
    · intro hs; rw [hl] at hs; cases hs
    · intro hs; rw [hl] at hs; cases hs
    · intro i u ht; simp [Client.toConnected, hbare.1] at ht
    · intro u hu; simp [Client.toConnected, hbare.2] at hu
    · intro o ho; simp [Client.toConnected] at ho
    · intro o ho
      simp only [Client.toConnected, onConnection_writing] at ho
      exact h.plain o ho
    · intro o ho
      simp only [Client.toConnected, onConnection_current] at ho
      exact h.curId o ho
    · intro o ho
      simp only [Client.toConnected, OpState.held, List.mem_append, onConnection_current, onConnection_writing,
        onConnection_unacked, List.not_mem_nil, or_false] at ho
      rcases ho with ho | ho | ho
      · simp only [onConnection_queued] at ho
        have h1 : packetId o.packet ∈ (requeued cfg settings c.ops).map (fun o => packetId o.packet) := by
          rw [← changeStatsAll_map (fun o => packetId o.packet) (by simp)
            (completeStats c.ops.stats (lostOnConnection cfg settings c.ops)) true false]
          exact List.mem_map.2 ⟨o, ho, rfl⟩
        obtain ⟨o', ho', hx⟩ := List.mem_map.1 h1
        rw [← hx]
        refine h.ids o' ?_
        unfold requeued at ho'
        split at ho'
        · simp only [List.mem_append, List.mem_filter] at ho'
          simp only [OpState.held, List.mem_append]
          rcases ho' with ho' | ho' | ho'
          · exact .inr (.inr (.inr ho'.1))
          · exact .inr (.inr (.inr ho'.1))
          · exact .inl ho'
        · simp only [keep, List.mem_append, List.mem_filter] at ho'
          simp only [OpState.held, List.mem_append]
          rcases ho' with ho' | ho'
          · exact .inr (.inr (.inr ho'.1))
          · exact .inl ho'
      · exact h.ids o (by simpa [OpState.held] using .inr (.inl (by simpa using ho)))
      · exact h.ids o (by simp [OpState.held, ho])
    · intro _ o ho; simp [Client.toConnected] at ho
    · simpa [Client.toConnected] using h.next
  | reset hst =>
    have hq : c.ctl.state.quiet = true := by rcases hst with h | h <;> simp [h, State.quiet]
    have h0 := h.down (.inl hq)
    have hl : live c.toStopped.ops.log = false := by
      simp only [Client.toStopped]
      rw [resetAll_log, live_completions, h0]
    constructor
    · intro hs; rw [toStopped_quiet] at hs; cases hs
    · intro _; exact hl
    · intro _ o ho
      simp only [Client.toStopped, resetAll_current] at ho
      exact h.cur h0 o ho
    · intro _; simp [Client.toStopped]
    · intro i u ht; simp [Client.toStopped] at ht
    · intro u hu; simp [Client.toStopped] at hu
    · intro o ho; simp [Client.toStopped] at ho
    · intro o ho; simp [Client.toStopped] at ho
    · intro o ho
      simp only [Client.toStopped, resetAll_current] at ho
      exact h.curId o ho
    · intro o ho
      simp only [Client.toStopped, OpState.held, resetAll_queued, resetAll_current, resetAll_writing,
        resetAll_unacked, List.nil_append, List.append_nil] at ho
      exact h.ids o (by simpa [OpState.held] using .inr (.inl (by simpa using ho)))
    · intro hs; rw [hl] at hs; cases hs
    · simpa [Client.toStopped] using h.next
  | terminate hst hd =>
    have hq : c.ctl.state.quiet = true := by simp [hst, State.quiet]
    have h0 := h.down (.inl hq)
    have hl : live c.toTerminated.ops.log = false := by
      simp only [Client.toTerminated]
      rw [resetAll_log, live_completions, h0]
    constructor
    · intro hs; rw [toTerminated_state] at hs; cases hs
    · intro _; exact hl
    · intro _ o ho
      simp only [Client.toTerminated, resetAll_current] at ho
      exact h.cur h0 o ho
    · intro _; simp [Client.toTerminated]
    · intro i u ht; simp [Client.toTerminated] at ht
    · intro u hu; simp [Client.toTerminated] at hu
    · intro o ho; simp [Client.toTerminated] at ho
    · intro o ho; simp [Client.toTerminated] at ho
    · intro o ho
      simp only [Client.toTerminated, resetAll_current] at ho
      exact h.curId o ho
    · intro o ho
      simp only [Client.toTerminated, OpState.held, resetAll_queued, resetAll_current, resetAll_writing,
        resetAll_unacked, List.nil_append, List.append_nil] at ho
      exact h.ids o (by simpa [OpState.held] using .inr (.inl (by simpa using ho)))
    · intro hs; rw [hl] at hs; cases hs
    · simpa [Client.toTerminated] using h.next

theorem reachable_live {cfg : Config} {c : Client} (h : Reachable cfg c) : HeldInv c ∧ LiveInv c :=
  reachable_inv (P := fun c => HeldInv c ∧ LiveInv c) ⟨held_new cfg, live_new cfg⟩
    (fun _ _ h m => ⟨held_move h.1 m, live_move h.1 h.2 m⟩) h

end Mqtt.Client5
