import Verif.Lemmas.Client5Ids

/-!
Packet ids of the MQTT 5 client on connections on which nothing is resent with an old packet id.
-/
namespace Mqtt.Client5

open Mqtt.V5

theorem divide_one (l : List Effect) (e : Effect) (h : e.phase = false) :
    divide (l ++ [e]) = ((divide l).1, (divide l).2 ++ [e]) := by
  unfold divide
  rw [List.foldl_append]
  cases e <;> simp_all [Effect.phase, divideOne]

theorem divide_append {l new : List Effect} (h : ∀ e ∈ new, e.phase = false) :
    divide (l ++ new) = ((divide l).1, (divide l).2 ++ new) := by
  induction new generalizing l with
  | nil => simp
  | cons e new ih =>
    rw [show l ++ e :: new = (l ++ [e]) ++ new by simp,
      ih (fun x hx => h x (List.mem_cons_of_mem _ hx)), divide_one l e (h e (List.mem_cons_self ..))]
    simp

theorem divide_connected (l : List Effect) (s : Settings) :
    divide (l ++ [.connected s]) = ((divide l).1 ++ (divide l).2 ++ [.connected s], []) := by
  unfold divide; rw [List.foldl_append]; rfl

theorem divide_all (l : List Effect) : (divide l).1 ++ (divide l).2 = l := by
  suffices h : ∀ (new : List Effect) (r : List Effect × List Effect),
      (new.foldl divideOne r).1 ++ (new.foldl divideOne r).2 = r.1 ++ r.2 ++ new by
    simpa [divide] using h l ([], [])
  intro new
  induction new with
  | nil => intro r; simp
  | cons e new ih =>
    intro r
    rw [List.foldl_cons, ih]
    cases e <;> simp [divideOne]

theorem past_connected (l : List Effect) (s : Settings) : past (l ++ [.connected s]) = l ++ [.connected s] := by
  unfold past; rw [divide_connected, divide_all]

theorem Resends.mono {l new : List Effect} (h : ∀ e ∈ new, e.phase = false) (hr : Resends l) :
    Resends (l ++ new) := by
  obtain ⟨u, p, w, p', w', h1, h2, h3⟩ := hr
  refine ⟨u, p, w, p', w', ?_, ?_, h3⟩
  · unfold present at *; rw [divide_append h]; exact List.mem_append_left _ h1
  · unfold past at *; rw [divide_append h]; exact h2

/-! ### The invariant -/

structure Tidy (s : OpState) : Prop where
  tab : ∀ op ∈ s.unacked, s.table.get (packetId op.packet) = some op.uid
  cur : ∀ op, s.current = some op → requiresAck op.packet = true → s.table.get (packetId op.packet) = none
  queue : ∀ op ∈ s.queued, packetId op.packet ≠ 0 →
    ∃ p w, .started op.uid p w ∈ past s.log ∧ packetId p = packetId op.packet

structure FreshInv (c : Client) : Prop where
  known : ∀ op ∈ c.ops.held, packetId op.packet ≠ 0 →
    ∃ p w, .started op.uid p w ∈ c.ops.log ∧ packetId p = packetId op.packet
  tidy : live c.ops.log = true → ¬Resends c.ops.log → Tidy c.ops

theorem fresh_new (cfg : Config) : FreshInv (Client.new cfg) := by
  constructor <;> simp [Client.new, OpState.held, live]

/-- Nothing happens but to the queue. -/
theorem Tidy.same {c : Client} (h : live c.ops.log = true → ¬Resends c.ops.log → Tidy c.ops) {s : OpState}
    {new : List Effect} (hl : s.log = c.ops.log ++ new) (hn : ∀ e ∈ new, e.phase = false)
    (h1 : s.unacked = c.ops.unacked) (h2 : s.table = c.ops.table) (h3 : s.current = c.ops.current)
    (h4 : ∀ op ∈ s.queued, packetId op.packet = 0 ∨ op ∈ c.ops.queued) :
    live s.log = true → ¬Resends s.log → Tidy s := by
  intro hlive hr
  rw [hl] at hr
  rw [hl, live_append hn] at hlive
  have ht := h hlive (fun hx => hr (hx.mono hn))
  constructor
  · rw [h1, h2]; exact ht.tab
  · rw [h2, h3]; exact ht.cur
  · intro op ho hz
    have hp : past s.log = past c.ops.log := by rw [hl]; unfold past; rw [divide_append hn]
    rw [hp]
    rcases h4 op ho with h4 | h4
    · exact absurd h4 hz
    · exact ht.queue op h4 hz

/-- An operation waiting for an acknowledgement goes. -/
theorem Tidy.remove {c : Client} (hh : HeldInv c)
    (h : live c.ops.log = true → ¬Resends c.ops.log → Tidy c.ops) {op : Op} {rest : List Op}
    {uid id : Nat} {e : Error} {a : Option Received} (hu : takeUid uid c.ops.unacked = some (op, rest))
    (hid : id = packetId op.packet) :
    live (c.ops.log ++ [Effect.completed op.uid op.packet e a]) = true →
      ¬Resends (c.ops.log ++ [Effect.completed op.uid op.packet e a]) →
      Tidy (({ c.ops with unacked := rest, table := c.ops.table.del id } : OpState).complete op e a) := by
  intro hlive hr
  have hn : ∀ x ∈ [Effect.completed op.uid op.packet e a], x.phase = false := by simp [Effect.phase]
  rw [live_append hn] at hlive
  have ht := h hlive (fun hx => hr (hx.mono hn))
  obtain ⟨x, y, h1, h2, _⟩ := takeUid_split hu
  have hf := filter_take hh.unackedOnce hu
  have hmem : op ∈ c.ops.unacked := by simp [h1]
  constructor
  · intro o ho
    simp only [OpState.complete] at ho ⊢
    rw [hf, List.mem_filter] at ho
    have hto := ht.tab o ho.1
    rw [AMap.get_del]
    split
    · rename_i heq
      have : packetId o.packet = packetId op.packet := by simpa [hid] using heq
      rw [this, ht.tab op hmem] at hto
      have : op.uid = o.uid := Option.some.inj hto
      simp [this] at ho
    · exact hto
  · intro o ho ha
    simp only [OpState.complete] at ho ⊢
    rw [AMap.get_del]
    split
    · rfl
    · exact ht.cur o ho ha
  · intro o ho hz
    have hp : past (c.ops.log ++ [Effect.completed op.uid op.packet e a]) = past c.ops.log := by
      unfold past; rw [divide_append hn]
    simp only [OpState.complete] at ho ⊢
    rw [hp]
    exact ht.queue o ho hz

theorem setCurrent_started {s s' : OpState} {op : Op} {ok : Bool} (h : s.setCurrent op = .ok (s', ok)) :
    ∃ new, s'.log = s.log ++ new ∧ (∀ e ∈ new, e.phase = false) ∧
      (s'.current = s.current ∨ ∃ op', s'.current = some op' ∧ op'.uid = op.uid) := by
  rcases setCurrent_cases h with ⟨_, p, n, enc, rfl, _⟩ | ⟨_, op', n, enc, rfl, hb, _⟩
  · exact ⟨_, rfl, by simp [Effect.phase], .inl rfl⟩
  · exact ⟨_, rfl, by simp [Effect.phase], .inr ⟨op', rfl, bind_uid hb⟩⟩

theorem tidy_move {cfg : Config} {c c' : Client} (hi : Inv c) (hk : ∀ op ∈ c.ops.held, packetId op.packet ≠ 0 →
      ∃ p w, .started op.uid p w ∈ c.ops.log ∧ packetId p = packetId op.packet)
    (h : live c.ops.log = true → ¬Resends c.ops.log → Tidy c.ops) (m : Move cfg c c') :
    live c'.ops.log = true → ¬Resends c'.ops.log → Tidy c'.ops := by
  cases m with
  | control k hk => exact h
  | accept p t hp hs hst =>
    refine Tidy.same h rfl (by simp [Effect.phase]) rfl rfl rfl fun o ho => ?_
    simp only [OpState.accept, List.mem_append, List.mem_singleton] at ho
    rcases ho with ho | rfl
    · exact .inr ho
    · refine .inl ?_
      simp only [changeStats_packet, OpState.newOp, withPacketId_packetId]
      split <;> rfl
  | reject p e hp => exact Tidy.same h rfl (by simp [Effect.phase]) rfl rfl rfl fun o ho => .inr ho
  | push p hp hst =>
    refine Tidy.same h (List.append_nil _).symm (by simp) rfl rfl rfl fun o ho => ?_
    simp only [OpState.pushFront, List.mem_cons] at ho
    rcases ho with rfl | ho
    · refine .inl ?_
      rcases hp with rfl | hp | hp
      · rfl
      · cases p <;> simp [isConnect] at hp; rfl
      · cases p <;> simp [isDisconnect] at hp; rfl
    · exact .inr ho
  | publish v a hst =>
    obtain ⟨s1, ctl, hs, hl, hx⟩ := onPublish_queue c.ops v a
    rcases hx with hx | hx
    · rw [hx]
      exact Tidy.same h hl (by simp [Effect.phase]) hs.unacked hs.table hs.current fun o ho => .inr (hs.queued ▸ ho)
    · rw [hx]
      refine Tidy.same h (new := [.delivered v ctl, .pubackQueued s1.nextUid v.packetId])
        (by simp [OpState.queuePuback, hl]) (by simp [Effect.phase]) hs.unacked hs.table hs.current fun o ho => ?_
      obtain ⟨x, y, h1, h2, _⟩ := insertPuback_split (s1.newOp (.puback { packetId := v.packetId })) s1.queued
      simp only [OpState.queuePuback, h2] at ho
      rw [← hs.queued, h1]
      simp only [List.mem_append, List.mem_cons] at ho ⊢
      rcases ho with ho | rfl | ho
      · exact .inr (.inl ho)
      · exact .inl rfl
      · exact .inr (.inr ho)
  | invoke ctl hst =>
    rcases invoke_queue c.ops ctl with ⟨id, s1, _, hs, hl, _, _, _, hx⟩ | ⟨_, hs, hl, _⟩
    · rw [hx]
      refine Tidy.same h (new := [.invoked ctl (some id), .pubackQueued s1.nextUid id])
        (by simp [OpState.queuePuback, hl]) (by simp [Effect.phase]) hs.unacked hs.table hs.current fun o ho => ?_
      obtain ⟨x, y, h1, h2, _⟩ := insertPuback_split (s1.newOp (.puback { packetId := id })) s1.queued
      simp only [OpState.queuePuback, h2] at ho
      rw [← hs.queued, h1]
      simp only [List.mem_append, List.mem_cons] at ho ⊢
      rcases ho with ho | rfl | ho
      · exact .inr (.inl ho)
      · exact .inl rfl
      · exact .inr (.inr ho)
    · exact Tidy.same h hl (by simp [Effect.phase]) hs.unacked hs.table hs.current fun o ho => .inr (hs.queued ▸ ho)
  | token id hst => exact Tidy.same h rfl (by simp [Effect.phase]) rfl rfl rfl fun o ho => .inr ho
  | invalid op rest e hq he =>
    exact Tidy.same h rfl (by simp [Effect.phase]) rfl rfl rfl fun o ho => .inr (by rw [hq]; exact List.mem_cons_of_mem _ ho)
  | start op rest s ok hq hc he hst hs =>
    intro hlive hr
    have hn0 := hi.live.next
    have hid0 : packetId op.packet ≤ 65535 := hi.live.ids op (by simp [OpState.held, hq])
    rcases setCurrent_cases hs with ⟨_, p, n, enc, rfl, _⟩ | ⟨_, op', n, enc, rfl, hb, _⟩
    · exact Tidy.same h rfl (by simp [Effect.phase]) rfl rfl rfl
        (fun o ho => .inr (by rw [hq]; exact List.mem_cons_of_mem _ ho)) hlive hr
    · generalize hw : ((stepsBytes enc.steps).drop _) = w at hlive hr ⊢
      have hn : ∀ x ∈ [Effect.started op'.uid op'.packet w], x.phase = false := by simp [Effect.phase]
      simp only at hlive hr
      rw [live_append hn] at hlive
      have ht := h hlive (fun hx => hr (hx.mono hn))
      have hp : past (c.ops.log ++ [Effect.started op'.uid op'.packet w]) = past c.ops.log := by
        unfold past; rw [divide_append hn]
      constructor
      · exact ht.tab
      · intro o ho hra
        cases ho
        rcases (bind_spec hb hn0 hid0).2.2.2 with rfl | ⟨_, _, hfree⟩
        · have hz : packetId op'.packet ≠ 0 := by
            have := (bind_spec hb hn0 hid0).2.1 hra; omega
          obtain ⟨p', w', h1, h2⟩ := ht.queue op' (by simp [hq]) hz
          refine absurd ⟨op'.uid, op'.packet, w, p', w', ?_, ?_, hra, h2⟩ hr
          · unfold present; rw [divide_append hn]; simp
          · rw [hp]; exact h1
        · exact hfree
      · intro o ho hz
        simp only at ho ⊢
        rw [hp]
        exact ht.queue o (by rw [hq]; exact List.mem_cons_of_mem _ ho) hz
  | encode op buf buf' enc r hc he =>
    exact Tidy.same h (List.append_nil _).symm (by simp) rfl rfl rfl fun o ho => .inr ho
  | finish op now s hc hsteps hs =>
    obtain ⟨_, ⟨hr, hid, rfl⟩ | ⟨hr, rfl⟩⟩ := finish_cases hs
    · intro hlive hre
      have hn : ∀ x ∈ [Effect.encoded op.uid op.packet], x.phase = false := by simp [Effect.phase]
      simp only [OpState.finishAck] at hlive hre
      rw [live_append hn] at hlive
      have ht := h hlive (fun hx => hre (hx.mono hn))
      have hfree := ht.cur op hc hr
      constructor
      · intro o ho
        simp only [OpState.finishAck, List.mem_append, List.mem_singleton] at ho ⊢
        rw [AMap.get_set]
        rcases ho with ho | rfl
        · have hto := ht.tab o ho
          rw [if_neg ?_]
          · exact hto
          · intro heq; rw [heq, hfree] at hto; cases hto
        · simp
      · intro o ho; simp [OpState.finishAck] at ho
      · intro o ho hz
        have hp : past (c.ops.log ++ [Effect.encoded op.uid op.packet]) = past c.ops.log := by
          unfold past; rw [divide_append hn]
        simp only [OpState.finishAck] at ho ⊢
        rw [hp]
        exact ht.queue o ho hz
    · intro hlive hre
      have hn : ∀ x ∈ [Effect.encoded op.uid op.packet], x.phase = false := by simp [Effect.phase]
      simp only [OpState.finishWrite] at hlive hre
      rw [live_append hn] at hlive
      have ht := h hlive (fun hx => hre (hx.mono hn))
      constructor
      · exact ht.tab
      · intro o ho; simp [OpState.finishWrite] at ho
      · intro o ho hz
        have hp : past (c.ops.log ++ [Effect.encoded op.uid op.packet]) = past c.ops.log := by
          unfold past; rw [divide_append hn]
        simp only [OpState.finishWrite] at ho ⊢
        rw [hp]
        exact ht.queue o ho hz
  | write data => exact Tidy.same h rfl (by simp [Effect.phase]) rfl rfl rfl fun o ho => .inr ho
  | pinged uid => exact Tidy.same h rfl (by simp [Effect.phase]) rfl rfl rfl fun o ho => .inr ho
  | unwrite => exact Tidy.same h (List.append_nil _).symm (by simp) rfl rfl rfl fun o ho => .inr ho
  | written e =>
    rw [completeAll_eq]
    exact Tidy.same h rfl (completions_phase _ _) rfl rfl rfl fun o ho => .inr ho
  | ack id uid op rest e a ht hu =>
    intro hlive hr
    obtain ⟨o', ho', ho1, ho2⟩ := hi.live.tab _ _ ht
    have hmem : op ∈ c.ops.unacked := by obtain ⟨x, y, h1, h2, _⟩ := takeUid_split hu; simp [h1]
    have : o' = op := uid_unique hi.held.unackedOnce ho' hmem (by rw [ho1, takeUid_uid hu])
    subst this
    exact Tidy.remove hi.held h hu ho2.symm hlive hr
  | timeout op rest hu ht => exact Tidy.remove hi.held h hu rfl
  | forget uid => exact Tidy.same h (List.append_nil _).symm (by simp) rfl rfl rfl fun o ho => .inr ho
  | fresh hq => exact Tidy.same h (List.append_nil _).symm (by simp) rfl rfl rfl fun o ho => .inr ho
  | disconnection e st hst =>
    intro hlive
    have := (live_move (cfg := cfg) hi.held hi.live (.disconnection c e st hst)).down
      (.inl (by rcases hst with rfl | rfl <;> rfl))
    rw [this] at hlive
    cases hlive
  | connection settings now hst hfits hids =>
    intro hlive hr
    have h0 := hi.live.down (.inr hst)
    have hbare := hi.live.bare h0
    constructor
    · intro o ho; simp [Client.toConnected] at ho
    · intro o ho; simp [Client.toConnected, hbare.1]
    · intro o ho hz
      have hlog : past (({ c with ctl := { c.ctl with settings := settings } } : Client).toConnected cfg now).ops.log =
          (({ c with ctl := { c.ctl with settings := settings } } : Client).toConnected cfg now).ops.log := by
        simp only [Client.toConnected]
        rw [onConnection_log, ← List.append_assoc, past_connected]
      rw [hlog]
      have hfrom := (move_from (.connection (cfg := cfg) c settings now hst hfits hids))
      rcases hfrom with ⟨_, hf⟩ | ⟨_, _, _, _, _, hx, _, hy⟩
      · have ho' : o ∈ (({ c with ctl := { c.ctl with settings := settings } } : Client).toConnected cfg now).ops.held := by
          simp only [OpState.held, List.mem_append]; exact .inl ho
        rcases hf o ho' with hf | ⟨x, hx1, hx2, hx3⟩
        · exact absurd hf hz
        · obtain ⟨p, w, hp1, hp2⟩ := hk x hx1 (by rw [hx3]; exact hz)
          obtain ⟨new, hnew, _⟩ := move_log (.connection (cfg := cfg) c settings now hst hfits hids)
          rw [hnew]
          exact ⟨p, w, List.mem_append_left _ (hx2 ▸ hp1), hp2.trans hx3⟩
      · rename_i op0 _ _ _ _
        have h1 := congrArg (fun c => live c.ops.log) hy
        simp only at h1
        obtain ⟨new, hn1, hn2, _⟩ := setCurrent_started hx
        rw [hn1, live_append hn2] at h1
        simp only at h1
        rw [h0, hlive] at h1
        cases h1
  | reset hst =>
    intro hlive
    have := (live_move (cfg := cfg) hi.held hi.live (.reset c hst)).down (.inl (by rw [toStopped_quiet]; rfl))
    rw [this] at hlive
    cases hlive
  | terminate hst hd =>
    intro hlive
    have := (live_move (cfg := cfg) hi.held hi.live (.terminate c hst hd trivial)).down (.inl (by rw [toTerminated_state]; rfl))
    rw [this] at hlive
    cases hlive

theorem fresh_move {cfg : Config} {c c' : Client} (hi : Inv c) (h : FreshInv c) (m : Move cfg c c') : FreshInv c' := by
  refine ⟨?_, tidy_move hi h.known h.tidy m⟩
  obtain ⟨new, hlog, _⟩ := move_log m
  rcases move_from m with ⟨_, hf⟩ | ⟨op, rest, s, ok, hq, hs, hc, rfl⟩
  · intro o ho hz
    rcases hf o ho with hf | ⟨x, hx1, hx2, hx3⟩
    · exact absurd hf hz
    · obtain ⟨p, w, hp1, hp2⟩ := h.known x hx1 (by rw [hx3]; exact hz)
      rw [hlog]
      exact ⟨p, w, List.mem_append_left _ (hx2 ▸ hp1), hp2.trans hx3⟩
  · intro o ho hz
    rcases setCurrent_cases hs with ⟨_, p, n, enc, rfl, _⟩ | ⟨_, op', n, enc, rfl, hb, _⟩
    · simp only [OpState.held, hc, Option.toList_none, List.nil_append, List.mem_append] at ho
      obtain ⟨p', w, hp1, hp2⟩ := h.known o (by
        simp only [OpState.held, hq, hc, Option.toList_none, List.nil_append, List.mem_append, List.mem_cons]
        rcases ho with ho | ho | ho
        · exact .inl (.inr ho)
        · exact .inr (.inl ho)
        · exact .inr (.inr ho)) hz
      exact ⟨p', w, List.mem_append_left _ hp1, hp2⟩
    · simp only [OpState.held, Option.toList_some, List.mem_append, List.mem_singleton] at ho
      have hrest : o ∈ c.ops.held → ∃ p w, .started o.uid p w ∈ c.ops.log ++
          [Effect.started op'.uid op'.packet ((stepsBytes enc.steps).drop
            (stepsBytes ({ c.ops with queued := rest } : OpState).encoder.steps).length)] ∧
          packetId p = packetId o.packet := fun hx => by
        obtain ⟨p', w, hp1, hp2⟩ := h.known o hx hz
        exact ⟨p', w, List.mem_append_left _ hp1, hp2⟩
      rcases ho with ho | rfl | ho | ho
      · exact hrest (by simp [OpState.held, hq, ho])
      · exact ⟨o.packet, _, List.mem_append_right _ (List.mem_singleton.2 rfl), rfl⟩
      · exact hrest (by simp [OpState.held, ho])
      · exact hrest (by simp [OpState.held, ho])

theorem reachable_fresh {cfg : Config} {c : Client} (h : Reachable cfg c) : Inv c ∧ FreshInv c :=
  reachable_inv (P := fun c => Inv c ∧ FreshInv c)
    ⟨⟨held_new cfg, live_new cfg, track_new cfg⟩, fresh_new cfg⟩
    (fun _ _ ⟨hi, hf⟩ m => ⟨⟨held_move hi.held m, live_move hi.held hi.live m,
      track_move hi.held hi.live hi.track m⟩, fresh_move hi hf m⟩) h

end Mqtt.Client5
