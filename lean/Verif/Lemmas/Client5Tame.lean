import Verif.Lemmas.Client5Stream
import Verif.Lemmas.Client5Run

/-!
Where the DISCONNECT packets and the delivered publishes of the MQTT 5 client come from.
-/
namespace Mqtt.Client5

open Mqtt.V5

/-- Neither the start of a DISCONNECT nor a delivery nor a submission. -/
def isTame : Effect → Bool
  | .submitted _ _ => false
  | .started _ (.disconnect _) _ => false
  | .delivered _ _ => false
  | _ => true

variable {D : DisconnectView → Prop} {R S : PublishView → Prop}

/-- DISCONNECT packets that are queued were queued before or satisfy `D`, those that are begun were queued or begun
before, deliveries were made before or satisfy `R`, publishes were submitted before or satisfy `S`. -/
structure Tame (D : DisconnectView → Prop) (R S : PublishView → Prop) (s s' : OpState) : Prop where
  queue : ∀ op ∈ s'.queued, ∀ v, op.packet = .disconnect v → D v ∨ ∃ o ∈ s.queued, o.packet = .disconnect v
  start : ∀ u v w, .started u (.disconnect v) w ∈ s'.log →
    .started u (.disconnect v) w ∈ s.log ∨ D v ∨ ∃ o ∈ s.queued, o.packet = .disconnect v
  deliver : ∀ v k, .delivered v k ∈ s'.log → .delivered v k ∈ s.log ∨ R v
  submit : ∀ u v, .submitted u (.publish v) ∈ s'.log → .submitted u (.publish v) ∈ s.log ∨ S v

theorem Tame.trans {a b c : OpState} (h : Tame D R S a b) (h' : Tame D R S b c) : Tame D R S a c := by
  have old : ∀ v, (∃ o ∈ b.queued, o.packet = .disconnect v) → D v ∨ ∃ o ∈ a.queued, o.packet = .disconnect v :=
    fun v ⟨o, h1, h2⟩ => h.queue o h1 v h2
  refine ⟨fun op ho v hv => ?_, fun u v w hx => ?_, fun v k hx => ?_, fun u v hx => ?_⟩
  · rcases h'.queue op ho v hv with h1 | h1
    · exact .inl h1
    · exact old v h1
  · rcases h'.start u v w hx with h1 | h1 | h1
    · exact h.start u v w h1
    · exact .inr (.inl h1)
    · exact .inr (old v h1)
  · rcases h'.deliver v k hx with h1 | h1
    · exact h.deliver v k h1
    · exact .inr h1
  · rcases h'.submit u v hx with h1 | h1
    · exact h.submit u v h1
    · exact .inr h1

theorem Tame.of {s s' : OpState} {new : List Effect} (hl : s'.log = s.log ++ new) (hn : ∀ e ∈ new, isTame e = true)
    (hq : ∀ op ∈ s'.queued, ∀ v, op.packet = .disconnect v → D v ∨ ∃ o ∈ s.queued, o.packet = .disconnect v) :
    Tame D R S s s' := by
  refine ⟨hq, fun u v w hx => ?_, fun v k hx => ?_, fun u v hx => ?_⟩ <;>
  · rw [hl] at hx
    rcases List.mem_append.1 hx with hx | hx
    · exact .inl hx
    · exact absurd (hn _ hx) (by simp [isTame])

theorem Tame.sub {s s' : OpState} {new : List Effect} (hl : s'.log = s.log ++ new) (hn : ∀ e ∈ new, isTame e = true)
    (hq : ∀ op ∈ s'.queued, op ∈ s.queued) : Tame D R S s s' :=
  .of hl hn fun op ho _ hv => .inr ⟨op, hq op ho, hv⟩

theorem Tame.refl (s : OpState) : Tame D R S s s := .sub (List.append_nil _).symm (by simp) fun _ => id

theorem isTame_completions (ops : List Op) (e : Error) : ∀ x ∈ completions ops e, isTame x = true := by
  intro x hx
  simp only [completions, List.mem_map] at hx
  obtain ⟨_, _, rfl⟩ := hx
  rfl

theorem tame_complete (s : OpState) (op : Op) (e : Error) (a : Option Received) : Tame D R S s (s.complete op e a) :=
  .sub rfl (by simp [isTame]) fun _ => id

theorem tame_push {s : OpState} {p : Outgoing} (h : ∀ v, p = .disconnect v → D v) : Tame D R S s (s.pushFront p) := by
  refine .of (new := []) (List.append_nil _).symm (by simp) fun op ho v hv => ?_
  simp only [OpState.pushFront, List.mem_cons] at ho
  rcases ho with rfl | ho
  · exact .inl (h v hv)
  · exact .inr ⟨op, ho, hv⟩

theorem tame_queuePuback (s : OpState) (id : Nat) : Tame D R S s (s.queuePuback id) := by
  refine .of (new := [_]) rfl (by simp [isTame]) fun o ho v hv => ?_
  obtain ⟨x, y, h1, h2, _⟩ := insertPuback_split (s.newOp (.puback { packetId := id })) s.queued
  simp only [OpState.queuePuback, h2] at ho
  simp only [List.mem_append, List.mem_cons] at ho
  rcases ho with ho | rfl | ho
  · exact .inr ⟨o, by rw [h1]; simp [ho], hv⟩
  · cases hv
  · exact .inr ⟨o, by rw [h1]; simp [ho], hv⟩

theorem tame_onPublish {s : OpState} {v : PublishView} (a : Bool) (h : R v) : Tame D R S s (s.onPublish v a) := by
  obtain ⟨s1, k, h1, h2, h3⟩ := onPublish_queue s v a
  have h4 : Tame D R S s s1 := by
    refine ⟨fun o ho w hw => .inr ⟨o, h1.queued ▸ ho, hw⟩, fun u w x hx => ?_, fun w x hx => ?_, fun u w hx => ?_⟩ <;>
      rw [h2] at hx
    · exact .inl (by simpa using hx)
    · simp only [List.mem_append, List.mem_singleton, Effect.delivered.injEq] at hx
      rcases hx with hx | ⟨rfl, _⟩
      · exact .inl hx
      · exact .inr h
    · exact .inl (by simpa using hx)
  rcases h3 with h3 | h3 <;> rw [h3]
  · exact h4
  · exact h4.trans (tame_queuePuback ..)

theorem tame_invoke (s : OpState) (ctl : Nat) : Tame D R S s (s.invoke ctl) := by
  rcases invoke_queue s ctl with ⟨id, s1, _, h1, h2, _, _, _, h3⟩ | ⟨_, h1, h2, _⟩
  · rw [h3]
    have h4 : Tame D R S s s1 := .sub h2 (by simp [isTame]) fun o ho => h1.queued ▸ ho
    exact h4.trans (tame_queuePuback ..)
  · exact .sub h2 (by simp [isTame]) fun o ho => h1.queued ▸ ho

theorem tame_shutdownWith {c : Client} {v : DisconnectView} (e : Error) (h : D v) :
    Tame D R S c.ops (c.shutdownWith e v).ops := by
  unfold Client.shutdownWith
  split
  · exact tame_push fun w hw => by cases hw; exact h
  · exact .refl _

theorem tame_shutdownClean {c : Client} {r : Nat} (e : Error) (h : ∀ v, newDisconnect { reasonCode := r } = some v → D v) :
    Tame D R S c.ops (c.shutdownClean e r).ops := by
  unfold Client.shutdownClean
  split
  · exact .refl _
  · rename_i v hv
    exact tame_shutdownWith e (h v hv)

theorem tame_resetAll (s : OpState) (e : Error) : Tame D R S s (s.resetAll e) :=
  .sub (resetAll_log s e) (isTame_completions _ _) (by simp)

theorem tame_toStopped (c : Client) : Tame D R S c.ops c.toStopped.ops := tame_resetAll ..

theorem retained_open {b : OfflineBehavior} {v : DisconnectView} : retained b (.disconnect v) = false := by
  cases b <;> rfl

theorem tame_onDisconnection (cfg : Config) (s : OpState) : Tame D R S s (s.onDisconnection cfg) := by
  refine .of (onDisconnection_log _ _) ?_ fun o ho v hv => ?_
  · intro x hx
    rcases List.mem_append.1 hx with hx | hx
    · exact isTame_completions _ _ x hx
    · simp only [List.mem_singleton] at hx; subst hx; rfl
  · simp only [onDisconnection_queued, keep, List.mem_filter, hv, retained_open] at ho
    exact absurd ho.2 (by simp)

theorem tame_onConnection (cfg : Config) (st : Settings) {s : OpState} (ha : ∀ op ∈ s.unacked, requiresAck op.packet = true) :
    Tame D R S s (s.onConnection cfg st) := by
  refine .of (onConnection_log ..) ?_ fun o ho v hv => ?_
  · intro x hx
    rcases List.mem_append.1 hx with hx | hx
    · exact isTame_completions _ _ x hx
    · simp only [List.mem_singleton] at hx; subst hx; rfl
  · rw [onConnection_queued] at ho
    have h1 := List.mem_map_of_mem (f := fun op : Op => (op.uid, op.packet)) ho
    rw [changeStatsAll_packets] at h1
    obtain ⟨o', h2, h3⟩ := List.mem_map.1 h1
    injection h3 with _ h3
    rw [hv] at h3
    refine .inr ⟨o', ?_, h3⟩
    have no : o' ∉ s.unacked := fun h => by have := ha o' h; rw [h3] at this; cases this
    unfold requeued at h2
    split at h2
    · simp only [List.mem_append, List.mem_filter] at h2
      rcases h2 with h2 | h2 | h2
      · exact absurd h2.1 no
      · exact absurd h2.1 no
      · exact h2
    · simp only [keep, List.mem_append, List.mem_filter] at h2
      rcases h2 with h2 | h2
      · exact absurd h2.1 no
      · exact h2

theorem tame_shutdownFinal (cfg : Config) (c : Client) (e : Error) : Tame D R S c.ops (c.shutdownFinal cfg e).ops := by
  unfold Client.shutdownFinal
  have h := tame_onDisconnection (D := D) (R := R) (S := S) cfg c.ops
  dsimp only
  split
  · exact h
  · exact h.trans (tame_toStopped ⟨c.ops.onDisconnection cfg, c.ctl.channelGone (c.ops.lostOnDisconnection cfg) e⟩)

/-! ## Serving the queue -/

theorem tame_takeNext {cfg : Config} {env : Env} (q : List Op) (c : Client) (hq : c.ops.queued = q) :
    Tame D R S c.ops (c.takeNext cfg env q).1.ops ∧
      ∀ op, (c.takeNext cfg env q).2 = .next op → op ∈ q := by
  induction q generalizing c with
  | nil =>
    rw [Client.takeNext]
    exact ⟨.refl _, fun _ h => (by cases h)⟩
  | cons op rest ih =>
    have h0 : Tame D R S c.ops { c.ops with queued := rest } :=
      .sub (List.append_nil _).symm (by simp) fun o ho => by rw [hq]; exact List.mem_cons_of_mem _ ho
    rw [Client.takeNext]
    split
    · exact ⟨.refl _, fun _ h => (by cases h)⟩
    · simp only
      split
      · exact ⟨h0, fun o ho => by cases ho; simp⟩
      · rename_i e _
        split
        · exact ⟨h0.trans (tame_complete ..), fun _ h => (by cases h)⟩
        · obtain ⟨h1, h2⟩ := ih (({ c with ops := { c.ops with queued := rest } } : Client).complete op e none) rfl
          exact ⟨(h0.trans (tame_complete ..)).trans h1, fun o ho => List.mem_cons_of_mem _ (h2 o ho)⟩

theorem tame_load {cfg : Config} {env : Env} {c c' : Client} {e : Option Error} (h : c.load cfg env = .ok (c', e)) :
    Tame D R S c.ops c'.ops := by
  unfold Client.load at h
  split at h
  · cases h; exact .refl _
  · obtain ⟨h1, h2⟩ := tame_takeNext (D := D) (R := R) (S := S) (cfg := cfg) (env := env) c.ops.queued c rfl
    rcases hx : c.takeNext cfg env c.ops.queued with ⟨c2, r⟩
    rw [hx] at h h1 h2
    cases r with
    | nothing => cases h; exact h1
    | failed => cases h; exact h1
    | next op =>
      have hop := h2 op rfl
      simp only at h h1
      split at h
      · cases h
      · rename_i s ok hs
        cases h
        rcases setCurrent_cases hs with ⟨_, p, n, enc, rfl, _⟩ | ⟨_, op', n, enc, rfl, hb, _⟩
        · exact h1.trans (.sub (new := [_]) rfl (by simp [isTame]) fun _ => id)
        · refine ⟨h1.queue, fun u v w hm => ?_, fun v k hm => ?_, fun u v hm => ?_⟩
          · simp only [List.mem_append, List.mem_singleton, Effect.started.injEq] at hm
            rcases hm with hm | ⟨_, hm, _⟩
            · exact h1.start u v w hm
            · refine .inr (.inr ⟨op, hop, ?_⟩)
              rcases bind_cases hb with ⟨_, _, h3⟩ | ⟨_, i, _, _, h3⟩
              · rw [← h3]; exact hm.symm
              · rw [h3] at hm
                cases hp : op.packet <;> simp [hp, withPacketId] at hm
                rw [hm]
          · exact h1.deliver v k (by simpa using hm)
          · exact h1.submit u v (by simpa using hm)

theorem tame_finish {cfg : Config} {c c' : Client} {op : Op} {now t : Nat} (h : c.finish cfg op now t = .ok c') :
    Tame D R S c.ops c'.ops := by
  unfold Client.finish at h
  split at h
  · cases h
  · rename_i s hs
    have hx : Tame D R S c.ops s := by
      obtain ⟨_, ⟨_, _, rfl⟩ | ⟨_, rfl⟩⟩ := finish_cases hs
      · exact .sub (new := [_]) rfl (by simp [isTame]) fun _ => id
      · exact .sub (new := [_]) rfl (by simp [isTame]) fun _ => id
    cases h
    exact hx

theorem tame_serviceLoop {cfg : Config} {env : Env} {fuel k : Nat} {buf : Buf} {c : Client}
    {r : Client × Buf × Option Error} (h : c.serviceLoop cfg env fuel k buf = .ok r) : Tame D R S c.ops r.1.ops := by
  induction fuel generalizing c k buf with
  | zero => simp only [Client.serviceLoop] at h; cases h; exact .refl _
  | succ fuel ih =>
    rw [Client.serviceLoop] at h
    split at h
    · cases h
    · rename_i c1 e hl; cases h; exact tame_load hl
    · rename_i c1 hl
      have h1 : Tame D R S c.ops c1.ops := tame_load hl
      split at h
      · cases h; exact h1
      · rename_i op hop
        split at h
        · cases h
          exact h1.trans (.sub (new := []) (List.append_nil _).symm (by simp) fun _ => id)
        · rename_i buf' enc _
          split at h
          · cases h
          · rename_i c2 hf
            have h2 : Tame D R S c1.ops { c1.ops with encoder := enc } :=
              .sub (new := []) (List.append_nil _).symm (by simp) fun _ => id
            have h3 : Tame D R S c.ops c2.ops := (h1.trans h2).trans
              (tame_finish (c := { c1 with ops := { c1.ops with encoder := enc } }) hf)
            split at h
            · exact h3.trans (ih h)
            · cases h; exact h3

theorem tame_serviceOps {cfg : Config} {env : Env} {c : Client} {r : Client × Option Error}
    (h : c.serviceOps cfg env = .ok r) : Tame D R S c.ops r.1.ops := by
  unfold Client.serviceOps at h
  split at h
  · cases h; exact .refl _
  · split at h
    · cases h; exact .refl _
    · split at h
      · cases h
      · rename_i hl; cases h; exact tame_serviceLoop hl
      · rename_i c1 _ hl
        have h1 : Tame D R S c.ops c1.ops := tame_serviceLoop hl
        split at h
        · cases h; exact h1
        · split at h
          · cases h
            exact h1.trans (.sub (new := []) (List.append_nil _).symm (by simp) fun _ => id)
          · cases h
            exact h1.trans (.sub (new := [_]) rfl (by simp [isTame]) fun _ => id)

theorem tame_afterService (r : Client × Option Error) : (Client.afterService r).1.ops = r.1.ops := by
  unfold Client.afterService
  split <;> rfl

theorem tame_checkTimeouts {now : Nat} {c c' : Client} (h : c.checkTimeouts now = .ok c') : Tame D R S c.ops c'.ops := by
  have key : ∀ {fuel : Nat} {s s' : OpState}, Client5.checkTimeouts now fuel s = .ok s' → Tame D R S s s' := by
    intro fuel
    induction fuel with
    | zero => intro s s' h; simp only [Client5.checkTimeouts] at h; cases h; exact .refl _
    | succ fuel ih =>
      intro s s' h
      rw [Client5.checkTimeouts] at h
      split at h
      · cases h; exact .refl _
      · split at h
        · cases h
        · split at h
          · cases h; exact .refl _
          · simp only at h
            split at h
            · cases h; exact .sub (new := []) (List.append_nil _).symm (by simp) fun _ => id
            · split at h
              · cases h
              · rename_i s1 hs1
                have h1 := ih h
                unfold OpState.resolve at hs1
                split at hs1
                · cases hs1
                · cases hs1
                  refine Tame.trans ?_ h1
                  refine .sub (new := [_]) rfl (by simp [isTame]) fun _ => id
  unfold Client.checkTimeouts at h
  split at h
  · cases h
  · rename_i s hs
    cases h
    exact key hs

theorem tame_queuePing (c : Client) (now : Nat) : Tame D R S c.ops (c.queuePing now).ops := by
  have h1 : Tame D R S c.ops (c.ops.pushFront .pingreq) := tame_push nofun
  exact h1.trans (.sub (new := [_]) rfl (by simp [isTame]) fun _ => id)

theorem tame_toConnecting (c : Client) (e : Option Error) : (c.toConnecting e).ops = c.ops := by
  unfold Client.toConnecting
  split <;> rfl

theorem tame_service {cfg : Config} {env : Env} {c c' : Client}
    (hp : ∀ r v, newDisconnect { reasonCode := r } = some v → D v) (h : c.service cfg env = .ok c') :
    Tame D R S c.ops c'.ops := by
  unfold Client.service at h
  split at h
  · split at h
    · cases h; rw [tame_toConnecting]; exact .refl _
    · cases h
      exact (tame_resetAll (D := D) (R := R) (S := S) c.ops .terminated).trans
        (.sub (new := []) (List.append_nil _).symm (by simp) fun _ => id)
    · cases h; exact .refl _
  · unfold Client.serviceMqttConnect at h
    split at h
    · cases h; exact .refl _
    · split at h
      · cases h; exact .refl _
      · split at h
        · cases h
        · rename_i r hr
          cases h
          rw [tame_afterService]
          exact tame_serviceOps hr
  · unfold Client.serviceConnected at h
    split at h
    · cases h; exact .refl _
    · split at h
      · cases h
        exact tame_shutdownClean (c := { c with ctl := c.ctl.emitFinal .pingTimeout }) _ (hp _)
      · simp only at h
        split at h
        · cases h
        · rename_i c1 hc1
          split at h
          · cases h
          · rename_i r hr
            cases h
            rw [tame_afterService]
            have h1 : Tame D R S c.ops (if env.now ≥ c.ctl.nextPing then c.queuePing env.queueNow else c).ops := by
              split
              · exact tame_queuePing ..
              · exact .refl _
            exact (h1.trans (tame_checkTimeouts hc1)).trans (tame_serviceOps hr)
  · unfold Client.serviceCleanDisconnect at h
    split at h
    · cases h
    · rename_i r hr
      have h1 : Tame D R S c.ops r.1.ops := tame_serviceOps hr
      rw [← tame_afterService] at h1
      split at h
      · rename_i hx
        rw [hx] at h1
        cases h; exact h1
      · rename_i hx
        rw [hx] at h1
        exact h1.trans (tame_checkTimeouts h)
  · split at h
    · cases h; exact tame_toStopped _
    · split at h
      · cases h; rw [tame_toConnecting]; exact .refl _
      · cases h; exact .refl _
  · cases h; exact .refl _

theorem tame_handleAck {c c' : Client} {id : Nat} {a : Received}
    (hp : ∀ r v, newDisconnect { reasonCode := r } = some v → D v) (h : c.handleAck id a = .ok c') :
    Tame D R S c.ops c'.ops := by
  unfold Client.handleAck at h
  split at h
  · cases h; exact .refl _
  · split at h
    · cases h
    · rename_i op rest _
      have h0 : ∀ e x, Tame D R S c.ops
          (({ c with ops := { c.ops with unacked := rest, table := c.ops.table.del id } } : Client).complete op e x).ops :=
        fun _ _ => .sub (new := [_]) rfl (by simp [isTame]) fun _ h => h
      simp only at h
      split at h
      · cases h
      · cases h; exact h0 ..
      · split at h
        · cases h; exact (h0 ..).trans (tame_shutdownClean _ (hp _))
        · cases h; exact h0 ..

theorem tame_packetConnected {c c' : Client} {p : Received} {a : Bool}
    (hp : ∀ r v, newDisconnect { reasonCode := r } = some v → D v) (hr : ∀ v, p = .publish v → R v)
    (h : c.onPacketConnected p a = .ok c') : Tame D R S c.ops c'.ops := by
  unfold Client.onPacketConnected at h
  cases p with
  | pingresp => cases h; exact .refl _
  | disconnect v =>
    simp only at h
    split at h
    · cases h
    · cases h; exact .refl _
  | suback v => exact tame_handleAck hp h
  | unsuback v => exact tame_handleAck hp h
  | publish v => cases h; exact tame_onPublish a (hr v rfl)
  | puback v =>
    have h1 : (c.onPuback v.packetId).handleAck v.packetId (.puback v) = .ok c' := h
    have h2 : Tame D R S c.ops (c.onPuback v.packetId).ops := .sub (new := [_]) rfl (by simp [isTame]) fun _ => id
    exact h2.trans (tame_handleAck hp h1)
  | connack v => cases h; exact .refl _

/-- What the user gives the client with an event. -/
structure Hands (D : DisconnectView → Prop) (S : PublishView → Prop) (e : Event) : Prop where
  farewell : ∀ d v, e = .setDesired d (some v) → D v
  publish : ∀ v t x, e = .submit (.publish v) t x → S v ∧ S { v with packetId := 0 }

theorem tame_submit {s : OpState} {p q : Outgoing} {u : Nat} (hu : isUser p = true)
    (hs : ∀ v, p = .publish v → S v ∧ S { v with packetId := 0 }) (hq : q = p ∨ q = withPacketId p 0) {s' : OpState}
    {new : List Effect} (hl : s'.log = s.log ++ .submitted u q :: new) (hn : ∀ e ∈ new, isTame e = true)
    (hx : ∀ o ∈ s'.queued, o ∈ s.queued ∨ o.packet = q) : Tame D R S s s' := by
  have hd : ∀ v, q ≠ .disconnect v := by
    rintro v rfl
    rcases hq with h | h <;> cases p <;> simp [withPacketId, isUser] at h hu
  have hv : ∀ v, q = .publish v → S v := by
    rintro v rfl
    rcases hq with h | h
    · exact (hs v h.symm).1
    · cases p with
      | publish w => cases h; exact (hs w rfl).2
      | _ => cases h
  refine ⟨fun o ho v h => ?_, fun u' v w h => ?_, fun v k h => ?_, fun u' v h => ?_⟩
  · rcases hx o ho with h1 | h1
    · exact .inr ⟨o, h1, h⟩
    · exact absurd (h1.symm.trans h) (hd v)
  all_goals
    rw [hl] at h
    simp only [List.mem_append, List.mem_cons] at h
    rcases h with h | h | h
  · exact .inl h
  · cases h
  · exact absurd (hn _ h) (by simp [isTame])
  · exact .inl h
  · cases h
  · exact absurd (hn _ h) (by simp [isTame])
  · exact .inl h
  · injection h with _ h
    exact .inr (hv v h.symm)
  · exact absurd (hn _ h) (by simp [isTame])

theorem tame_step {cfg : Config} {c c' : Client} {e : Event} (hl : LiveInv c) (he : Enabled c e)
    (hp : ∀ r v, newDisconnect { reasonCode := r } = some v → D v) (hd : Hands D S e)
    (hr : ∀ v, v.packetId < 65536 → R v) (h : step cfg c e = .ok c') : Tame D R S c.ops c'.ops := by
  cases e with
  | submit p t x =>
    cases h
    have hs : ∀ v, p = .publish v → S v ∧ S { v with packetId := 0 } := fun v hv => hd.publish v t x (by rw [hv])
    unfold Client.submit
    split
    · exact tame_submit he.1 hs (.inl rfl) (new := [_]) rfl (by simp [isTame]) fun _ => .inl
    · split
      · exact tame_submit he.1 hs (.inl rfl) (new := [_]) rfl (by simp [isTame]) fun _ => .inl
      · refine tame_submit he.1 hs (.inr rfl) (new := []) rfl (by simp) fun o ho => ?_
        simp only [OpState.accept, List.mem_append, List.mem_singleton] at ho
        rcases ho with ho | rfl
        · exact .inl ho
        · exact .inr (changeStats_op ..).2.1
  | setDesired d v =>
    cases h
    unfold Client.setDesired
    split
    · exact .refl _
    · cases v with
      | none => exact .refl _
      | some v =>
        simp only
        split
        · exact tame_shutdownWith (c := { c with ctl := { c.ctl with desired := d } }) _ (hd.farewell d v rfl)
        · exact .refl _
  | service env => exact tame_service hp h
  | setup err now =>
    have h : c.setup cfg err now = .ok c' := h
    unfold Client.setup at h
    split at h
    · cases h; exact tame_shutdownFinal ..
    · split at h
      · cases h
      · split at h
        · cases h; exact .refl _
        · unfold Client.toMqttConnect at h
          split at h
          · cases h
          · split at h
            · cases h
            · simp only at h
              split at h
              · cases h; exact .refl _
              · split at h
                · cases h; exact .sub (new := []) (List.append_nil _).symm (by simp) fun _ => id
                · cases h
                  have h1 : Tame D R S c.ops { c.ops with pendingWrite := false, encoder := { c.ops.encoder with steps := [] } } :=
                    .sub (new := []) (List.append_nil _).symm (by simp) fun _ => id
                  exact h1.trans (tame_push nofun)
  | shutdown e => cases h; exact tame_shutdownFinal ..
  | writeComplete e =>
    cases h
    unfold Client.writeComplete
    simp only [completeAll_eq]
    exact .sub rfl (isTame_completions _ _) fun _ => id
  | packet p a now =>
    have h : c.onPacket cfg p a now = .ok c' := h
    have hpub : ∀ v, p = .publish v → R v := fun v hv => hr v (by have := he.2; rw [hv] at this; simpa [inRange] using this)
    unfold Client.onPacket at h
    split at h
    · split at h
      · unfold Client.onConnack at h
        split at h
        · split at h
          · cases h
          · cases h; exact .refl _
        · simp only at h
          split at h
          · split at h
            · cases h
            · cases h; exact .refl _
          · cases h
            exact tame_onConnection cfg _ hl.acked
      · cases h; exact tame_shutdownClean _ (hp _)
    · exact tame_packetConnected hp hpub h
    · exact tame_packetConnected hp hpub h
    · cases h; exact .refl _
  | readFailed e =>
    cases h
    unfold Client.readFailed
    split
    · exact tame_shutdownClean _ (hp _)
    · exact .refl _
  | invoke ctl => cases h; exact tame_invoke ..
  | resetConnection =>
    cases h
    unfold Client.resetConnection
    split <;> exact .refl _

/-- States that histories lead to in which the user gives the client what `allowed` says. -/
inductive ReachableBy (allowed : Event → Prop) (cfg : Config) : Client → Prop where
  | new : ReachableBy allowed cfg (Client.new cfg)
  | step {c c' : Client} {e : Event} : ReachableBy allowed cfg c → Enabled c e → allowed e → step cfg c e = .ok c' →
      ReachableBy allowed cfg c'

theorem ReachableBy.reachable {allowed : Event → Prop} {cfg : Config} {c : Client} (h : ReachableBy allowed cfg c) :
    Reachable cfg c := by
  induction h with
  | new => exact .new
  | step _ he _ hs ih => exact .step ih he hs

theorem run_by {allowed : Event → Prop} {cfg : Config} {es : List Event} {c c' : Client} (h : run cfg c es = .ok c')
    (ha : ∀ e ∈ es, allowed e) (hr : ReachableBy allowed cfg c) : ReachableBy allowed cfg c' := by
  induction es generalizing c with
  | nil => cases h; exact hr
  | cons e es ih =>
    rw [run] at h
    split at h
    · rename_i he
      split at h
      · cases h
      · rename_i c1 hs
        exact ih h (fun e h => ha e (.tail _ h)) (.step hr he (ha e (.head _)) hs)
    · cases h

theorem run_test_by {allowed : Event → Prop} {cfg : Config} {es : List Event} {t : Client → Bool}
    (h : (run cfg (Client.new cfg) es).test t = true) (ha : ∀ e ∈ es, allowed e) :
    ∃ c, ReachableBy allowed cfg c ∧ t c = true := by
  cases hr : run cfg (Client.new cfg) es with
  | ok c =>
    rw [hr] at h
    exact ⟨c, run_by hr ha .new, h⟩
  | fault f => rw [hr] at h; cases h
  | impossible => rw [hr] at h; cases h

structure TameInv (D : DisconnectView → Prop) (R S : PublishView → Prop) (s : OpState) : Prop where
  queue : ∀ op ∈ s.queued, ∀ v, op.packet = .disconnect v → D v
  start : ∀ u v w, .started u (.disconnect v) w ∈ s.log → D v
  deliver : ∀ v k, .delivered v k ∈ s.log → R v
  submit : ∀ u v, .submitted u (.publish v) ∈ s.log → S v

theorem reachable_tame {allowed : Event → Prop} {cfg : Config} {c : Client} (h : ReachableBy allowed cfg c)
    (hp : ∀ r v, newDisconnect { reasonCode := r } = some v → D v) (hr : ∀ v, v.packetId < 65536 → R v)
    (hd : ∀ e, allowed e → Hands D S e) : TameInv D R S c.ops := by
  induction h with
  | new => constructor <;> simp [Client.new]
  | @step c c' e hc he ha hs ih =>
    have ht := tame_step (R := R) (reachable_live hc.reachable).2 he hp (hd e ha) hr hs
    have old : ∀ v, (∃ o ∈ c.ops.queued, o.packet = .disconnect v) → D v := fun v ⟨o, h1, h2⟩ => ih.queue o h1 v h2
    refine ⟨fun o ho v hv => (ht.queue o ho v hv).elim id (old v), fun u v w h => ?_,
      fun v k h => (ht.deliver v k h).elim (ih.deliver v k) id, fun u v h => (ht.submit u v h).elim (ih.submit u v) id⟩
    rcases ht.start u v w h with h1 | h1 | h1
    · exact ih.start u v w h1
    · exact h1
    · exact old v h1

end Mqtt.Client5
