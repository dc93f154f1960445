import Verif.Lemmas.Client5Life
import Verif.Lemmas.Client5Faults
import Verif.Lemmas.Client5Timer
import Verif.Props.C20

/-!
The clean-disconnect phase of the MQTT 5 client: how the service task gets to a DISCONNECT packet, and what the other
events do meanwhile.
-/
namespace Mqtt.Client5

open Mqtt.V5

/-! ## The steps of the encoder -/

def StepsOk (c : Client) : Prop := ∀ s ∈ c.ops.encoder.steps, s.Ok

theorem executeStep_ok {s : Step} {buf : Buf} (h : s.Ok) : (executeStep s buf).2.2.Ok := by
  unfold executeStep
  cases s <;> simp only
  · split <;> exact h
  · split <;> exact h
  · split <;> exact h
  · split
    · exact h
    · split <;> exact h
  · split <;> trivial

theorem encodeSteps_ok {steps : List Step} {buf : Buf} (h : ∀ s ∈ steps, s.Ok) :
    ∀ s ∈ (encodeSteps steps buf).2.2, s.Ok := by
  induction steps generalizing buf with
  | nil => simp [encodeSteps]
  | cons s r ih =>
    have h1 := executeStep_ok (buf := buf) (h s (by simp))
    unfold encodeSteps
    rcases hx : executeStep s buf with ⟨res, b, s'⟩
    rw [hx] at h1
    cases res
    · exact ih fun s hs => h s (List.mem_cons_of_mem _ hs)
    · intro x hx
      rcases List.mem_cons.1 hx with rfl | hx
      · exact h1
      · exact h x (List.mem_cons_of_mem _ hx)

theorem encodeToBuffer_ok {e e' : Encoder} {buf buf' : Buf} {r : EncodeResult} (h : ∀ s ∈ e.steps, s.Ok)
    (he : e.encodeToBuffer buf = (r, buf', e')) : ∀ s ∈ e'.steps, s.Ok := by
  unfold Encoder.encodeToBuffer at he
  have h1 := encodeSteps_ok (buf := buf) h
  rcases hx : encodeSteps e.steps buf with ⟨res, b, rest⟩
  rw [hx] at h1 he
  cases res
  · cases he; simp
  · cases he; exact h1

theorem setCurrent_ok {s s' : OpState} {op : Op} {ok : Bool} (hs : ∀ x ∈ s.encoder.steps, x.Ok)
    (h : s.setCurrent op = .ok (s', ok)) : ∀ x ∈ s'.encoder.steps, x.Ok := by
  unfold OpState.setCurrent at h
  split at h
  · cases h; exact hs
  · rename_i s1 op1 hb
    have he := bind_encoder hb
    split at h
    · cases h
    · rename_i enc ha
      cases h
      exact Props.append_ok (he ▸ hs) (.inr ha)
    · rename_i enc ha
      cases h
      exact Props.append_ok (he ▸ hs) (.inl ha)

theorem stepsOk_move {cfg : Config} {c c' : Client} (h : StepsOk c) (m : Move cfg c c') : StepsOk c' := by
  cases m with
  | publish v acquire _ =>
    have hacq : (c.ops.acquire v.packetId).1.encoder = c.ops.encoder := by unfold OpState.acquire; split <;> rfl
    unfold StepsOk OpState.onPublish
    cases acquire <;> simp only [Bool.false_eq_true, if_false, if_true] <;> split
    · exact h
    · split
      · exact h
      · exact h
    · exact h
    · split
      · simp only [hacq]; exact h
      · unfold OpState.queuePuback; simp only [hacq]; exact h
  | invoke ctl _ => unfold StepsOk OpState.invoke; split <;> exact h
  | start op rest s ok _ _ _ _ hs _ => exact setCurrent_ok (s := { c.ops with queued := rest }) h hs
  | encode op buf buf' enc r _ he => exact encodeToBuffer_ok h he
  | finish op now s _ _ hf =>
    obtain ⟨_, ⟨_, _, rfl⟩ | ⟨_, rfl⟩⟩ := finish_cases hf
    · unfold StepsOk OpState.finishAck; exact h
    · exact h
  | written e => unfold StepsOk; rw [completeAll_eq]; exact h
  | fresh _ => simp [StepsOk]
  | disconnection e st _ => unfold StepsOk; simp only [onDisconnection_encoder]; exact h
  | connection settings now _ _ =>
    unfold StepsOk Client.toConnected OpState.onConnection
    simp only
    split
    · exact h
    · simp only [completeAll_eq]; exact h
  | reset _ => unfold StepsOk Client.toStopped; simp only [resetAll_encoder]; exact h
  | terminate _ _ => unfold StepsOk Client.toTerminated; simp only [resetAll_encoder]; exact h
  | _ => exact h

theorem reachable_stepsOk {cfg : Config} {c : Client} (h : Reachable cfg c) : StepsOk c :=
  reachable_inv (by simp [StepsOk, Client.new]) (fun _ _ h m => stepsOk_move h m) h

/-! ## A DISCONNECT packet on its way -/

/-- Weight of the encoding of a DISCONNECT packet. -/
def disconnectWeight (v : DisconnectView) : Nat :=
  match packetSteps (.disconnect v) with
  | none => 0
  | some steps => V5.weight (pushSteps steps).1

/-- The DISCONNECT packet `v` of operation `u` is next in the queue or being encoded; the number bounds the runs of the
service task that it needs. -/
inductive Left (u : Nat) (v : DisconnectView) (c : Client) : Nat → Prop where
  | head {op : Op} {rest : List Op} {n : Nat} : c.ops.queued = op :: rest → op.uid = u → op.packet = .disconnect v →
      n = V5.weight c.ops.encoder.steps + (if c.ops.current.isSome then 1 else 0) + disconnectWeight v + 2 →
      Left u v c n
  | current {op : Op} {n : Nat} : c.ops.current = some op → op.uid = u → op.packet = .disconnect v →
      n = V5.weight c.ops.encoder.steps + 1 → Left u v c n

theorem weight_append (a b : List Step) : V5.weight (a ++ b) = V5.weight a + V5.weight b := by
  simp [V5.weight, stepsBytes]; omega

theorem append_disconnect {e e' : Encoder} {v : DisconnectView} (h : e.append (.disconnect v) = .ok e') :
    V5.weight e'.steps = V5.weight e.steps + disconnectWeight v := by
  change e.push (packetSteps (.disconnect v)) = .ok e' at h
  unfold Encoder.push at h
  unfold disconnectWeight
  cases hp : packetSteps (.disconnect v) with
  | none => rw [hp] at h; cases h
  | some steps =>
    rw [hp] at h
    simp only at h ⊢
    split at h
    · cases h; exact weight_append _ _
    · cases h

/-- Making sure that there is a current operation. -/
theorem load_left {cfg : Config} {env : Env} {c c' : Client} {u n : Nat} {v : DisconnectView}
    (h : c.load cfg env = .ok (c', none)) (hl : Left u v c n) (hok : StepsOk c) :
    (∃ op, c'.ops.current = some op) ∧ c'.ctl = c.ctl ∧ StepsOk c' ∧ (∃ new, c'.ops.log = c.ops.log ++ new) ∧
      ∃ m, Left u v c' m ∧ m ≤ n ∧ (c' = c ∨ m < n) := by
  unfold Client.load at h
  split at h
  · rename_i hc
    cases h
    exact ⟨Option.isSome_iff_exists.1 hc, rfl, hok, ⟨[], by simp⟩, n, hl, Nat.le_refl _, .inl rfl⟩
  · rename_i hc
    cases hl with
    | current h1 => rw [h1] at hc; simp at hc
    | @head op rest _ hq hu hp hn =>
      rw [hq] at h
      unfold Client.takeNext at h
      rw [hp] at h
      simp only [isPublish, Bool.and_false, Bool.false_and, Bool.false_eq_true, if_false] at h
      cases hi : Client.invalid cfg { c with ops := { c.ops with queued := rest } } (.disconnect v) with
      | some e => simp only [hi, isDisconnect, if_true] at h; cases h
      | none =>
        simp only [hi] at h
        split at h
        · cases h
        · rename_i s ok hs
          cases ok
          · cases h
          · cases h
            have hok' := setCurrent_ok (s := { c.ops with queued := rest }) hok hs
            rcases setCurrent_cases hs with ⟨h1, _⟩ | ⟨_, op', id, enc, rfl, hb, ha⟩
            · cases h1
            · have hop : op' = op := by
                unfold OpState.bind at hb
                rw [hp] at hb
                simp only [needsId, requiresAck, Bool.false_and, Bool.not_false, if_true] at hb
                cases hb; rfl
              subst hop
              rw [hp] at ha
              have hw := append_disconnect ha
              simp only at hw
              refine ⟨⟨_, rfl⟩, rfl, hok', ⟨_, rfl⟩, _, .current rfl hu hp rfl, ?_⟩
              simp only [hc] at hn
              dsimp only
              constructor
              · omega
              · right; omega

/-- The DISCONNECT packet has been encoded. -/
def Sent (u : Nat) (v : DisconnectView) (c : Client) : Prop := .encoded u (.disconnect v) ∈ c.ops.log

theorem encodeToBuffer_weight {e e' : Encoder} {buf buf' : Buf} (h : ∀ s ∈ e.steps, s.Ok)
    (hb : buf.data.length ≤ buf.cap) (he : e.encodeToBuffer buf = (.outOfRoom, buf', e')) :
    V5.weight e'.steps ≤ V5.weight e.steps ∧
      (buf.data.length + 4 ≤ buf.cap → V5.weight e'.steps < V5.weight e.steps) := by
  obtain ⟨_, _, _, _, _, hc⟩ := encodeSteps_spec e.steps h buf hb
  unfold Encoder.encodeToBuffer at he
  rcases hx : encodeSteps e.steps buf with ⟨res, b, rest⟩
  rw [hx] at hc he
  rcases hc with ⟨h1, _⟩ | ⟨h1, h2, h3⟩
  · simp only at h1; subst h1; cases he
  · simp only at h1; subst h1; cases he
    exact ⟨h2, h3⟩

theorem encodeToBuffer_room {e e' : Encoder} {buf buf' : Buf} {r : EncodeResult} (h : ∀ s ∈ e.steps, s.Ok)
    (hb : buf.data.length ≤ buf.cap) (he : e.encodeToBuffer buf = (r, buf', e')) :
    buf'.data.length ≤ buf'.cap := by
  obtain ⟨out, h1, h2, _⟩ := encodeSteps_spec e.steps h buf hb
  unfold Encoder.encodeToBuffer at he
  rcases hx : encodeSteps e.steps buf with ⟨res, b, rest⟩
  rw [hx] at h1 he
  simp only at h1
  cases res <;> cases he <;> rw [h1] <;> exact h2

/-- The fields after an operation has been encoded. -/
theorem finish_fields {cfg : Config} {c c' : Client} {op : Op} {now t : Nat} (h : c.finish cfg op now t = .ok c') :
    c'.ops.queued = c.ops.queued ∧ c'.ops.encoder = c.ops.encoder ∧ c'.ops.current = none ∧
      c'.ops.log = c.ops.log ++ [.encoded op.uid op.packet] ∧ c'.ops.pendingWrite = c.ops.pendingWrite := by
  unfold Client.finish at h
  split at h
  · cases h
  · rename_i s hs
    cases h
    obtain ⟨_, ⟨_, _, rfl⟩ | ⟨_, rfl⟩⟩ := finish_cases hs
    · unfold OpState.finishAck; exact ⟨rfl, rfl, rfl, rfl, rfl⟩
    · exact ⟨rfl, rfl, rfl, rfl, rfl⟩

/-- The loop of the service task. -/
theorem serviceLoop_left {cfg : Config} {env : Env} {fuel k : Nat} {buf : Buf} {c : Client} {u n : Nat}
    {v : DisconnectView} {r : Client × Buf × Option Error} (h : c.serviceLoop cfg env fuel k buf = .ok r)
    (hr : r.2.2 = none) (hl : Left u v c n) (hok : StepsOk c) (hb : buf.data.length ≤ buf.cap) :
    (∃ new, r.1.ops.log = c.ops.log ++ new) ∧
      (Sent u v r.1 ∨ ∃ m, Left u v r.1 m ∧ m ≤ n ∧ (0 < fuel → buf.data.length + 4 ≤ buf.cap → m < n)) := by
  induction fuel generalizing k buf c n with
  | zero =>
    rw [Client.serviceLoop] at h
    cases h
    exact ⟨⟨[], by simp⟩, .inr ⟨n, hl, Nat.le_refl _, fun h => absurd h (Nat.lt_irrefl _)⟩⟩
  | succ fuel ih =>
    rw [Client.serviceLoop] at h
    split at h
    · cases h
    · cases h; cases hr
    · rename_i c1 h1
      obtain ⟨⟨op, hop⟩, hk, hok1, ⟨new1, hlog1⟩, m, hm, hmn, hlt⟩ := load_left h1 hl hok
      rw [hop] at h
      simp only at h
      split at h
      · rename_i buf' enc henc
        cases h
        obtain ⟨w1, w2⟩ := encodeToBuffer_weight hok1 hb henc
        refine ⟨⟨new1, hlog1⟩, .inr ?_⟩
        cases hm with
        | head hq hu hp hn =>
          refine ⟨_, .head hq hu hp rfl, ?_, fun _ hroom => ?_⟩
          · dsimp only; omega
          · have := w2 hroom
            dsimp only; omega
        | current hc hu hp hn =>
          refine ⟨_, .current hc hu hp rfl, ?_, fun _ hroom => ?_⟩
          · dsimp only; omega
          · have := w2 hroom
            dsimp only; omega
      · rename_i buf' enc henc
        have hb' := encodeToBuffer_room hok1 hb henc
        have hnil := encodeToBuffer_finished henc
        split at h
        · cases h
        · rename_i c2 hf
          obtain ⟨f1, f2, f3, f4, _⟩ := finish_fields hf
          have hok2 : StepsOk c2 := by
            unfold StepsOk; rw [f2]; dsimp only; rw [hnil]; simp
          dsimp only at f1 f2 f4
          have hlog2 : c2.ops.log = c.ops.log ++ (new1 ++ [.encoded op.uid op.packet]) := by
            rw [f4, hlog1, List.append_assoc]
          cases hm with
          | current hc hu hp hn =>
            have heq : op = _ := Option.some.inj (hop.symm.trans hc)
            subst heq
            have hsent : Sent u v c2 := by
              unfold Sent; rw [f4, hu, hp]; simp
            split at h
            · obtain ⟨new, hnew⟩ : ∃ new, r.1.ops.log = c2.ops.log ++ new :=
                let ⟨new, h, _⟩ := serviceLoop_pings h; ⟨new, h⟩
              refine ⟨⟨_, by rw [hnew, hlog2, List.append_assoc]⟩, .inl ?_⟩
              unfold Sent at hsent ⊢; rw [hnew]; exact List.mem_append_left _ hsent
            · cases h; exact ⟨⟨_, hlog2⟩, .inl hsent⟩
          | @head op1 rest _ hq hu hp hn =>
            have hl2 : Left u v c2 (disconnectWeight v + 2) := by
              refine .head (f1 ▸ hq) hu hp ?_
              rw [f2, f3, hnil]; simp [V5.weight, stepsBytes]
            have hlt : disconnectWeight v + 2 < n := by rw [hop] at hn; simp only [Option.isSome_some, if_true] at hn; omega
            split at h
            · obtain ⟨⟨new, hnew⟩, hx⟩ := ih h hl2 hok2 hb'
              refine ⟨⟨_, by rw [hnew, hlog2, List.append_assoc]⟩, ?_⟩
              rcases hx with hx | ⟨m, h1, h2, _⟩
              · exact .inl hx
              · exact .inr ⟨m, h1, by omega, fun _ _ => by omega⟩
            · cases h
              exact ⟨⟨_, hlog2⟩, .inr ⟨_, hl2, by omega, fun _ _ => hlt⟩⟩

/-! ## Other events of the phase -/

def isPuback : Outgoing → Bool
  | .puback _ => true
  | _ => false

/-- Nothing is encoded; the queue grows at its end or by one PUBACK. -/
structure Aside (c c' : Client) (new : List Effect) : Prop where
  current : c'.ops.current = c.ops.current
  encoder : c'.ops.encoder = c.ops.encoder
  log : c'.ops.log = c.ops.log ++ new
  quiet : ∀ u p, .encoded u p ∉ new
  queued : (∃ more, c'.ops.queued = c.ops.queued ++ more) ∨
    ∃ op u id, c'.ops.queued = insertPuback op c.ops.queued ∧ isPuback op.packet = true ∧ .pubackQueued u id ∈ new

theorem Aside.refl {c c' : Client} (h : c'.ops = c.ops) : Aside c c' [] :=
  ⟨by rw [h], by rw [h], by rw [h]; simp, by simp, .inl ⟨[], by rw [h]; simp⟩⟩

theorem Aside.same {c c' : Client} (new : List Effect) (h1 : c'.ops.current = c.ops.current)
    (h2 : c'.ops.encoder = c.ops.encoder) (h3 : c'.ops.log = c.ops.log ++ new) (h4 : ∀ u p, .encoded u p ∉ new)
    (h5 : c'.ops.queued = c.ops.queued) : Aside c c' new :=
  ⟨h1, h2, h3, h4, .inl ⟨[], by rw [h5]; simp⟩⟩

theorem shutdown_leaves {k : Control} (e : Error) (h : k.state = .cleanDisconnect) (hs : k.slot = true) :
    (k.shutdownChannel e).state = .channelShutdown := by
  unfold Control.shutdownChannel
  generalize (if e = .success then .other 0 else e) = e
  simp [State.open, h, hs]

theorem shutdownChannel_slot (k : Control) (e : Error) : (k.shutdownChannel e).slot = k.slot := by
  unfold Control.shutdownChannel
  generalize (if e = .success then .other 0 else e) = e
  dsimp only
  split
  · simp
  · split <;> simp

theorem handleAck_aside {c c' : Client} {id : Nat} {a : Received} (hs : c.ctl.state = .cleanDisconnect)
    (h : c.handleAck id a = .ok c') : ∃ new, Aside c c' new := by
  unfold Client.handleAck at h
  split at h
  · cases h; exact ⟨_, .refl rfl⟩
  · split at h
    · cases h
    · rename_i op rest _
      simp only at h
      have hst : ∀ e, (({ c with ops := { c.ops with unacked := rest, table := c.ops.table.del id } } : Client).complete
          op e none).ctl.state ≠ .connected := by
        intro e
        unfold Client.complete
        obtain ⟨_, h1 | h1⟩ := onComplete_cases c.ctl op.packet e <;> simp [h1, hs]
      split at h
      · cases h
      · cases h; exact ⟨[_], .same _ rfl rfl rfl (by simp) rfl⟩
      · split at h
        · rename_i hx; exact absurd hx (hst _)
        · cases h; exact ⟨[_], .same _ rfl rfl rfl (by simp) rfl⟩

theorem publish_aside (c : Client) (v : PublishView) (a : Bool) :
    ∃ new, Aside c { c with ops := c.ops.onPublish v a } new := by
  have hacq : (c.ops.acquire v.packetId).1.log = c.ops.log ∧ (c.ops.acquire v.packetId).1.current = c.ops.current ∧
      (c.ops.acquire v.packetId).1.encoder = c.ops.encoder ∧ (c.ops.acquire v.packetId).1.queued = c.ops.queued := by
    unfold OpState.acquire; split <;> exact ⟨rfl, rfl, rfl, rfl⟩
  obtain ⟨a1, a2, a3, a4⟩ := hacq
  unfold OpState.onPublish
  split
  · exact ⟨[_], .same _ rfl rfl rfl (by simp) rfl⟩
  · cases a
    · simp only [Bool.false_eq_true, if_false]
      split
      · exact ⟨[_], .same _ rfl rfl rfl (by simp) rfl⟩
      · exact ⟨[_, _], rfl, rfl, by simp [OpState.queuePuback]; exact ⟨rfl, rfl⟩, by simp,
          .inr ⟨_, c.ops.nextUid, v.packetId, rfl, rfl, by simp⟩⟩
    · simp only [if_true]
      split
      · exact ⟨[_], .same _ a2 a3 (by simp [a1]; rfl) (by simp) a4⟩
      · exact ⟨[_, _], a2, a3, by simp [OpState.queuePuback, a1]; exact ⟨rfl, rfl⟩, by simp,
          .inr ⟨_, (c.ops.acquire v.packetId).1.nextUid, v.packetId, by simp [OpState.queuePuback, a4]; rfl, rfl,
            by simp⟩⟩

/-- Events other than the service task, as long as the client stays in the phase. -/
theorem clean_aside {cfg : Config} {c c' : Client} {e : Event} (hen : Enabled c e) (h : step cfg c e = .ok c')
    (hs : c.ctl.state = .cleanDisconnect) (hs' : c'.ctl.state = .cleanDisconnect)
    (he : ∀ env, e ≠ .service env) : ∃ new, Aside c c' new := by
  cases e with
  | service env => exact absurd rfl (he env)
  | submit p t x =>
    cases h
    unfold Client.submit
    split
    · exact ⟨[_, _], .same _ rfl rfl rfl (by simp) rfl⟩
    · split
      · exact ⟨[_, _], .same _ rfl rfl rfl (by simp) rfl⟩
      · exact ⟨[_], rfl, rfl, rfl, by simp, .inl ⟨_, rfl⟩⟩
  | setDesired d v =>
    cases h
    unfold Client.setDesired
    split
    · exact ⟨_, .refl rfl⟩
    · simp only
      split
      · split
        · unfold Client.shutdownWith
          simp only [hs, reduceCtorEq, or_self, if_false]
          exact ⟨_, .refl rfl⟩
        · exact ⟨_, .refl rfl⟩
      · exact ⟨_, .refl rfl⟩
  | setup err now => rw [show c.ctl.state = .connecting from hen] at hs; cases hs
  | shutdown x =>
    cases h
    exfalso
    unfold Client.shutdownFinal at hs'
    simp only at hs'
    split at hs'
    · cases hs'
    · rw [toStopped_quiet] at hs'; cases hs'
  | writeComplete x =>
    cases h
    exact ⟨completions c.ops.writing x, .same _ (by simp [Client.writeComplete, completeAll_eq])
      (by simp [Client.writeComplete, completeAll_eq]) (by simp [Client.writeComplete, completeAll_eq])
      (by simp [completions]) (by simp [Client.writeComplete, completeAll_eq])⟩
  | packet p acquire now =>
    change c.onPacket cfg p acquire now = .ok c' at h
    unfold Client.onPacket at h
    rw [hs] at h
    simp only at h
    unfold Client.onPacketConnected at h
    split at h
    · cases h; exact ⟨_, .refl rfl⟩
    · split at h
      · cases h
      · cases h; exact ⟨_, .refl rfl⟩
    · exact handleAck_aside hs h
    · exact handleAck_aside hs h
    · cases h; exact publish_aside ..
    · obtain ⟨new, hn⟩ := handleAck_aside (c := c.onPuback _) hs h
      refine ⟨_ :: new, hn.current, hn.encoder, by rw [hn.log]; exact List.append_assoc .., ?_, ?_⟩
      · intro u p hm
        rcases List.mem_cons.1 hm with hm | hm
        · cases hm
        · exact hn.quiet u p hm
      · rcases hn.queued with h | ⟨op, u, id, h1, h2, h3⟩
        · exact .inl h
        · exact .inr ⟨op, u, id, h1, h2, List.mem_cons_of_mem _ h3⟩
    · cases h; exact ⟨_, .refl rfl⟩
  | readFailed x =>
    cases h
    unfold Client.readFailed
    simp only [hs, reduceCtorEq, and_false, if_false]
    exact ⟨_, .refl rfl⟩
  | invoke ctl =>
    cases h
    unfold OpState.invoke
    split
    · rename_i id _
      exact ⟨[_, _], rfl, rfl, by simp [OpState.queuePuback]; exact ⟨rfl, rfl⟩, by simp,
        .inr ⟨_, c.ops.nextUid, id, rfl, rfl, by simp⟩⟩
    · exact ⟨[_], .same _ rfl rfl rfl (by simp) rfl⟩
  | resetConnection =>
    cases h
    unfold Client.resetConnection
    rw [hs]
    exact ⟨_, .refl rfl⟩

theorem checkTimeouts_aside {now : Nat} {c c' : Client} (h : c.checkTimeouts now = .ok c') :
    ∃ new, c'.ops.current = c.ops.current ∧ c'.ops.encoder = c.ops.encoder ∧ c'.ops.log = c.ops.log ++ new ∧
      (∀ u p, .encoded u p ∉ new) ∧ c'.ops.queued = c.ops.queued ∧ c'.ctl = c.ctl := by
  unfold Client.checkTimeouts at h
  split at h
  · cases h
  · rename_i s hs
    cases h
    generalize c.ops.timeouts.length = fuel at hs
    generalize c.ops = s0 at hs
    suffices ∃ new, s.current = s0.current ∧ s.encoder = s0.encoder ∧ s.log = s0.log ++ new ∧
        (∀ u p, .encoded u p ∉ new) ∧ s.queued = s0.queued by
      obtain ⟨new, h1, h2, h3, h4, h5⟩ := this; exact ⟨new, h1, h2, h3, h4, h5, rfl⟩
    induction fuel generalizing s0 with
    | zero => simp only [Client5.checkTimeouts] at hs; cases hs; exact ⟨[], rfl, rfl, by simp, by simp, rfl⟩
    | succ fuel ih =>
      rw [Client5.checkTimeouts] at hs
      split at hs
      · cases hs; exact ⟨[], rfl, rfl, by simp, by simp, rfl⟩
      · split at hs
        · cases hs
        · split at hs
          · cases hs; exact ⟨[], rfl, rfl, by simp, by simp, rfl⟩
          · simp only at hs
            split at hs
            · cases hs; exact ⟨[], rfl, rfl, by simp, by simp, rfl⟩
            · split at hs
              · cases hs
              · rename_i s1 hs1
                obtain ⟨new, h1, h2, h3, h4, h5⟩ := ih _ hs
                unfold OpState.resolve at hs1
                split at hs1
                · cases hs1
                · cases hs1
                  refine ⟨_ :: new, h1, h2, by rw [h3]; exact List.append_assoc .., ?_, h5⟩
                  intro u p hm
                  rcases List.mem_cons.1 hm with hm | hm
                  · cases hm
                  · exact h4 u p hm

/-- A run of the service task that is not held up. -/
def Runs (cfg : Config) (c : Client) : Event → Prop
  | .service env => c.ops.pendingWrite = false ∧
      (cfg.extended = true → env.throughputWait 0 = 0 ∧ env.throughputOk = true)
  | _ => False

theorem left_ready {cfg : Config} {c : Client} {u n : Nat} {v : DisconnectView} (hl : Left u v c n)
    (hs : c.ctl.state = .cleanDisconnect) (hw : c.ops.pendingWrite = false) (w p now : Nat) :
    c.serviceTime cfg w p now =
      some (if c.throttledUntil cfg w now > now then c.throttledUntil cfg w now else now) := by
  unfold Client.serviceTime
  simp only [hw, Bool.false_eq_true, if_false]
  split
  · rfl
  · split
    · rfl
    · rename_i hc
      cases hl with
      | current h1 => rw [h1] at hc; simp at hc
      | head hq hu hp _ => simp [Client.pendingWork, hq, hs, hp, isDisconnect, Client.operationTime]

theorem unthrottled {cfg : Config} {c : Client} (now : Nat) {w : Nat} (h : cfg.extended = true → w = 0) :
    c.throttledUntil cfg w now ≤ now := by
  unfold Client.throttledUntil
  split
  · rename_i hx
    rw [h (Bool.and_eq_true _ _ ▸ hx).2]
    unfold Reconnect.addSat
    exact Nat.min_le_right _ _
  · exact Nat.le_refl _

theorem clean_service {cfg : Config} {c c' : Client} {env : Env} {u n : Nat} {v : DisconnectView}
    (h : c.service cfg env = .ok c') (hr : Reachable cfg c) (hr' : Reachable cfg c')
    (hs : c.ctl.state = .cleanDisconnect) (hs' : c'.ctl.state = .cleanDisconnect) (hl : Left u v c n) :
    Sent u v c' ∨ ∃ m, Left u v c' m ∧ m ≤ n ∧ (Runs cfg c (.service env) → m < n) := by
  have hslot := (reachable_event hr').opened (by rw [hs']; rfl)
  have hok := reachable_stepsOk hr
  unfold Client.service at h
  rw [hs] at h
  simp only at h
  unfold Client.serviceCleanDisconnect at h
  split at h
  · cases h
  · rename_i r hr
    rcases r with ⟨c1, err⟩
    have hst : c1.ctl.state = .channelShutdown ∨ c1.ctl.state = .cleanDisconnect := by
      rcases serviceOps_state hr with h1 | h1
      · exact .inr (h1.trans hs)
      · exact .inl h1
    cases err with
    | some e =>
      exfalso
      simp only [Client.afterService] at h
      cases h
      have h1 : c1.ctl.slot = true := by rw [← shutdownChannel_slot c1.ctl e]; exact hslot
      rcases hst with hst | hst
      · rw [shutdownChannel_closed _ _ (by rw [hst]; rfl), hst] at hs'; cases hs'
      · rw [shutdown_leaves e hst h1] at hs'; cases hs'
    | none =>
      simp only [Client.afterService] at h
      obtain ⟨new, t1, t2, t3, t4, t5, t6⟩ := checkTimeouts_aside h
      suffices Sent u v c1 ∨ ∃ m, Left u v c1 m ∧ m ≤ n ∧ (Runs cfg c (.service env) → m < n) by
        rcases this with h1 | ⟨m, h1, h2, h3⟩
        · left; unfold Sent at h1 ⊢; rw [t3]; exact List.mem_append_left _ h1
        · refine .inr ⟨m, ?_, h2, h3⟩
          cases h1 with
          | head a1 a2 a3 a4 => exact .head (t5 ▸ a1) a2 a3 (by rw [a4, t1, t2])
          | current a1 a2 a3 a4 => exact .current (t1 ▸ a1) a2 a3 (by rw [a4, t2])
      unfold Client.serviceOps at hr
      split at hr
      · rename_i hne
        cases hr
        refine .inr ⟨n, hl, Nat.le_refl _, fun hx => ?_⟩
        exfalso
        apply hne
        rw [left_ready hl hs hx.1]
        have := unthrottled (c := c) (env.loopNow 0) (fun h => (hx.2 h).1)
        rw [if_neg (by omega)]
      · split at hr
        · rename_i hne
          cases hr
          refine .inr ⟨n, hl, Nat.le_refl _, fun hx => ?_⟩
          simp only [Bool.and_eq_true, Bool.not_eq_true'] at hne
          rw [(hx.2 hne.1.2).2] at hne
          cases hne.2
        · split at hr
          · cases hr
          · cases hr
          · rename_i c2 buf hloop
            obtain ⟨_, hx⟩ := serviceLoop_left hloop rfl hl hok (by simp)
            split at hr
            · cases hr
              rcases hx with hx | ⟨m, h1, h2, h3⟩
              · exact .inl hx
              · exact .inr ⟨m, h1, h2, fun _ => h3 (by omega) (by simp)⟩
            · split at hr
              · cases hr
              · cases hr
                rcases hx with hx | ⟨m, h1, h2, h3⟩
                · exact .inl (List.mem_append_left _ hx)
                · refine .inr ⟨m, ?_, h2, fun _ => h3 (by omega) (by simp)⟩
                  cases h1 with
                  | head a1 a2 a3 a4 => exact .head a1 a2 a3 a4
                  | current a1 a2 a3 a4 => exact .current a1 a2 a3 a4

end Mqtt.Client5
