import Verif.Lemmas.Client5Drain
import Verif.Lemmas.Client5Log
import Verif.Lemmas.Client5TimedRun

/-!
C32: the DISCONNECT packet of a clean disconnect is eventually written.

The service task writes. "Eventually" is a bound on the number of its runs that nothing holds up, and that the task is
scheduled.
-/
namespace Mqtt.Props

open Mqtt.V5 Mqtt.Client5

/-- The client is in its clean-disconnect phase. -/
def Closing (c : Client) : Prop := c.ctl.state = .cleanDisconnect

/-- DISCONNECT packet `v` of operation `u` is at the head of the queue or is being encoded. -/
def Next (u : Nat) (v : DisconnectView) (c : Client) : Prop :=
  (∃ op rest, c.ops.queued = op :: rest ∧ op.uid = u ∧ op.packet = .disconnect v) ∨
  ∃ op, c.ops.current = some op ∧ op.uid = u ∧ op.packet = .disconnect v

/-- It has been encoded completely. -/
def Encoded (u : Nat) (v : DisconnectView) (c : Client) : Prop := .encoded u (.disconnect v) ∈ c.ops.log

def isPubackQueued : Effect → Bool
  | .pubackQueued _ _ => true
  | _ => false

/-- How many PUBACK packets have been put into the queue. -/
def pubacks (c : Client) : Nat := c.ops.log.countP isPubackQueued

/-- A history in the phase with `n` runs of the service task that find the channel ready for data and are not held up
by the rate limiters of extended validation. -/
inductive Phase (cfg : Config) (ok : Client → Client → Prop) : Client → Nat → Client → Prop where
  | refl {c : Client} : Closing c → Phase cfg ok c 0 c
  | run {c d d' : Client} {n : Nat} {e : Event} : Phase cfg ok c n d → Enabled d e → Client5.step cfg d e = .ok d' →
      Closing d' → ok d d' → Runs cfg d e → Phase cfg ok c (n + 1) d'
  | other {c d d' : Client} {n : Nat} {e : Event} : Phase cfg ok c n d → Enabled d e → Client5.step cfg d e = .ok d' →
      Closing d' → ok d d' → Phase cfg ok c n d'

def NoPuback (c d : Client) : Prop := pubacks d = pubacks c

theorem Phase.closing {cfg : Config} {ok : Client → Client → Prop} {c d : Client} {n : Nat} (h : Phase cfg ok c n d) :
    Closing d := by
  cases h with
  | refl h => exact h
  | run _ _ _ h => exact h
  | other _ _ _ h => exact h

theorem Phase.reachable {cfg : Config} {ok : Client → Client → Prop} {c d : Client} {n : Nat} (h : Phase cfg ok c n d)
    (hr : Client5.Reachable cfg c) : Client5.Reachable cfg d := by
  induction h with
  | refl _ => exact hr
  | run _ he hs _ _ _ ih => exact .step ih he hs
  | other _ he hs _ _ ih => exact .step ih he hs

/-- `stop` with a DISCONNECT packet. -/
theorem C32_stop {cfg : Config} {c c' : Client} {v : DisconnectView} (hup : c.ctl.state = .connected)
    (hd : c.ctl.desired = .connected) (h : Client5.step cfg c (.setDesired .stopped (some v)) = .ok c') :
    Closing c' ∧ Next c.ops.nextUid v c' ∧ pubacks c' = pubacks c := by
  cases h
  unfold Client.setDesired
  rw [if_neg (by rw [hd]; simp)]
  simp only [if_true]
  unfold Client.shutdownWith
  rw [if_pos (.inl hup)]
  exact ⟨rfl, .inl ⟨_, _, rfl, rfl, rfl⟩, rfl⟩

theorem next_left {u : Nat} {v : DisconnectView} {c : Client} (h : Next u v c) : ∃ n, Left u v c n := by
  rcases h with ⟨op, rest, h1, h2, h3⟩ | ⟨op, h1, h2, h3⟩
  · exact ⟨_, .head h1 h2 h3 rfl⟩
  · exact ⟨_, .current h1 h2 h3 rfl⟩

theorem encoded_step {cfg : Config} {c c' : Client} {e : Event} {u : Nat} {v : DisconnectView} (h : Encoded u v c)
    (hen : Enabled c e) (hs : Client5.step cfg c e = .ok c') : Encoded u v c' :=
  moves_inv (P := Encoded u v) (fun _ _ h m => by
    obtain ⟨new, hl, _⟩ := move_log m
    unfold Encoded at h ⊢
    rw [hl]
    exact List.mem_append_left _ h) (step_moves hen hs) h

theorem left_step {cfg : Config} {c c' : Client} {e : Event} {u n : Nat} {v : DisconnectView} (h : Left u v c n)
    (hr : Client5.Reachable cfg c) (hc : Closing c) (hen : Enabled c e) (hs : Client5.step cfg c e = .ok c') (hc' : Closing c')
    (hn : NoPuback c c') :
    Encoded u v c' ∨ ∃ m, Left u v c' m ∧ m ≤ n ∧ (Runs cfg c e → m < n) := by
  by_cases he : ∃ env, e = .service env
  · obtain ⟨env, rfl⟩ := he
    exact clean_service hs hr (.step hr hen hs) hc hc' h
  · have he' : ∀ env, e ≠ .service env := fun env h => he ⟨env, h⟩
    obtain ⟨new, ha⟩ := clean_aside hen hs hc hc' he'
    refine .inr ⟨n, ?_, Nat.le_refl _, fun hx => ?_⟩
    · cases h with
      | current a1 a2 a3 a4 => exact .current (ha.current ▸ a1) a2 a3 (by rw [a4, ha.encoder])
      | @head op rest _ a1 a2 a3 a4 =>
        rcases ha.queued with ⟨more, hq⟩ | ⟨_, w, id, _, _, hq⟩
        · exact .head (rest := rest ++ more) (by rw [hq, a1]; rfl) a2 a3 (by rw [a4, ha.encoder, ha.current])
        · exfalso
          unfold NoPuback pubacks at hn
          rw [ha.log, List.countP_append] at hn
          have : 0 < new.countP isPubackQueued := List.countP_pos_iff.2 ⟨_, hq, rfl⟩
          omega
    · cases e with
      | service env => exact absurd rfl (he' env)
      | _ => exact hx.elim

/-- C32, with an exception: if no PUBACK packet is queued meanwhile, then the DISCONNECT packet is written within a
number of unhindered runs of the service task, whatever else happens; unless the phase is over. -/
theorem C32_partial {cfg : Config} {c : Client} {u : Nat} {v : DisconnectView} (hr : Client5.Reachable cfg c)
    (hn : Next u v c) : ∃ N, ∀ n d, Phase cfg NoPuback c n d → N ≤ n → Encoded u v d := by
  obtain ⟨k, hl⟩ := next_left hn
  suffices ∀ n d, Phase cfg NoPuback c n d → Encoded u v d ∨ ∃ m, Left u v d m ∧ m + n ≤ k by
    refine ⟨k + 1, fun n d h hle => ?_⟩
    rcases this n d h with h | ⟨m, _, h⟩
    · exact h
    · omega
  intro n d h
  induction h with
  | refl _ => exact .inr ⟨k, hl, by omega⟩
  | run hp he hs hc hok hrun ih =>
    rcases ih with ih | ⟨m, ih, hle⟩
    · exact .inl (encoded_step ih he hs)
    · rcases left_step ih (hp.reachable hr) hp.closing he hs hc hok with h | ⟨m', h, _, h2⟩
      · exact .inl h
      · exact .inr ⟨m', h, by have := h2 hrun; omega⟩
  | other hp he hs hc hok ih =>
    rcases ih with ih | ⟨m, ih, hle⟩
    · exact .inl (encoded_step ih he hs)
    · rcases left_step ih (hp.reachable hr) hp.closing he hs hc hok with h | ⟨m', h, h2, _⟩
      · exact .inl h
      · exact .inr ⟨m', h, by omega⟩

/-! ## The service task is scheduled -/

/-- The queue or the encoder has something for the service task of the phase. -/
def Ready (c : Client) : Prop :=
  Closing c ∧ c.ops.pendingWrite = false ∧
    (c.ops.current.isSome = true ∨ ∃ op rest, c.ops.queued = op :: rest ∧ isDisconnect op.packet = true)

theorem Next.ready {u : Nat} {v : DisconnectView} {c : Client} (h : Next u v c) (hc : Closing c)
    (hw : c.ops.pendingWrite = false) : Ready c := by
  refine ⟨hc, hw, ?_⟩
  rcases h with ⟨op, rest, h1, _, h2⟩ | ⟨op, h1, _⟩
  · exact .inr ⟨op, rest, h1, by rw [h2]; rfl⟩
  · exact .inl (by rw [h1]; rfl)

theorem ready_time {cfg : Config} {c : Client} (h : Ready c) (w : Waits) {now : Nat} (hn : 0 < now) :
    0 < c.nextService cfg w now ∧ (cfg.extended = false → c.nextService cfg w now ≤ now) := by
  obtain ⟨hc, hw, h⟩ := h
  have hst : c.serviceTime cfg w.throughput w.publish now =
      some (if c.throttledUntil cfg w.throughput now > now then c.throttledUntil cfg w.throughput now else now) := by
    unfold Client.serviceTime
    simp only [hw, Bool.false_eq_true, if_false]
    split
    · rfl
    · split
      · rfl
      · rename_i hcur
        rcases h with h | ⟨op, rest, hq, hd⟩
        · exact absurd h hcur
        · simp [Client.pendingWork, hq, show c.ctl.state = .cleanDisconnect from hc, hd, Client.operationTime]
  have hlow : cfg.extended = false → c.throttledUntil cfg w.throughput now = now := by
    intro h; unfold Client.throttledUntil; simp [h]
  unfold Client.nextService
  rw [show c.ctl.state = .cleanDisconnect from hc]
  simp only [hst, Option.getD_some]
  unfold minNonZero
  refine ⟨?_, fun he => ?_⟩
  · repeat' split
    all_goals omega
  · rw [hlow he]
    repeat' split
    all_goals omega

theorem ready_of {c c' : Client} (h : Ready c') (h1 : c'.ctl.state = c.ctl.state)
    (h2 : c'.ops.pendingWrite = c.ops.pendingWrite) (h3 : c'.ops.current = c.ops.current)
    (h4 : c'.ops.queued = c.ops.queued) : Ready c :=
  ⟨h1.symm.trans h.1, h2.symm.trans h.2.1, h3 ▸ h4 ▸ h.2.2⟩

theorem ready_idle {cfg : Config} {c c' : Client} {e : Event} (h : Ready c') (hen : Enabled c e)
    (hs : Client5.step cfg c e = .ok c') (hre : reevaluates cfg c e c' = false) :
    Ready c ∧ ∀ env, e ≠ .service env := by
  have hc : c'.ctl.state = .cleanDisconnect := h.1
  cases e with
  | service env => simp [reevaluates, hc] at hre
  | submit p t x =>
    refine ⟨?_, by simp⟩
    cases hs
    simp only [reevaluates, Bool.and_eq_false_iff, Bool.not_eq_false', Bool.or_eq_false_iff,
      beq_eq_false_iff_ne] at hre
    unfold Client.submit at h
    split at h
    · exact ready_of h rfl rfl rfl rfl
    · rename_i hx
      have h1 := hre.resolve_left hx
      rw [if_pos ⟨h1.1, by simp [h1.2]⟩] at h
      exact ready_of h rfl rfl rfl rfl
  | setDesired d v =>
    refine ⟨?_, by simp⟩
    cases hs
    have hd : c.ctl.desired = d := by simpa [reevaluates] using hre
    unfold Client.setDesired at h
    rw [if_pos hd] at h
    exact h
  | setup err now => cases hre
  | shutdown x => cases hre
  | writeComplete x =>
    exfalso
    cases hs
    have h1 : c.ctl.state.open = false := hre
    change (Control.onCompleteAll _ _ _).state = _ at hc
    obtain ⟨_, h2 | h2⟩ := onCompleteAll_cases
      (if x ≠ .success ∧ c.ctl.state.open then c.ctl.shutdownChannel x else c.ctl) c.ops.writing x
    · rw [if_neg (by simp [h1])] at h2
      have := h2.symm.trans (by simpa [h1] using hc)
      rw [this] at h1; cases h1
    · have := h2.symm.trans hc; cases this
  | packet p a now => cases hre
  | readFailed x =>
    refine ⟨?_, by simp⟩
    cases hs
    have h1 : (c.readFailed x).ctl.state = c.ctl.state := by simpa [reevaluates] using hre
    have h2 : c.ctl.state = .cleanDisconnect := h1.symm.trans hc
    unfold Client.readFailed at h h1
    simp only [h2, reduceCtorEq, and_false, if_false] at h h1
    exact ready_of h (h1.trans h2.symm) rfl rfl rfl
  | invoke ctl =>
    refine ⟨?_, by simp⟩
    cases hs
    simp only [reevaluates, Option.isSome_eq_false_iff, Option.isNone_iff_eq_none] at hre
    unfold OpState.invoke at h
    rw [hre] at h
    exact ready_of h rfl rfl rfl rfl
  | resetConnection =>
    refine ⟨?_, by simp⟩
    cases hs
    have h1 : c.resetConnection.ctl.state = c.ctl.state := by simpa [reevaluates] using hre
    have h2 : c.ctl.state = .cleanDisconnect := h1.symm.trans hc
    unfold Client.resetConnection at h
    rw [h2] at h
    exact h

/-- C32: while the DISCONNECT packet is next and the channel is ready for data, the service task is scheduled; without
the rate limiters of extended validation it is due at once. -/
theorem C32_scheduled {cfg : Config} {late : Nat} {x : Clocked} (h : Timed cfg late x) (hx : Ready x.client) :
    0 < x.scheduled ∧ (cfg.extended = false → x.scheduled ≤ x.clock) := by
  induction h with
  | new t ht => cases hx.1
  | @step y z t e hy h ih =>
    have hclock := (timed_timer hy).clock
    cases h with
    | mk w hst hen hstep hr hn1 hn2 =>
      rename_i t' now c'
      have ht := hst.1
      simp only at hx ⊢
      by_cases hre : reevaluates cfg y.client e c' = true
      · rw [if_pos hre, reevaluate_eq]
        obtain ⟨h1, h2⟩ := ready_time (cfg := cfg) hx w (now := now) (by omega)
        exact ⟨h1, fun he => Nat.le_trans (h2 he) hn2⟩
      · rw [if_neg hre]
        have hre : reevaluates cfg y.client e c' = false := by simpa using hre
        obtain ⟨h1, h2⟩ := ready_idle hx hen hstep hre
        obtain ⟨h3, h4⟩ := ih h1
        cases e <;> first | exact ⟨h3, fun he => Nat.le_trans (h4 he) (by omega)⟩ | exact absurd rfl (h2 _)

/-! ## The exception -/

/-- The DISCONNECT packet waits behind another operation. -/
def Behind (u : Nat) (c : Client) : Prop :=
  Closing c ∧ c.ops.current = none ∧ (∀ w, .encoded u w ∉ c.ops.log) ∧
    ∃ op rest, c.ops.queued = op :: rest ∧ isDisconnect op.packet = false ∧
      ∃ d ∈ rest, d.uid = u ∧ isDisconnect d.packet = true

theorem mem_insertPuback {op o : Op} {q : List Op} (h : o ∈ q) : o ∈ insertPuback op q := by
  induction q with
  | nil => cases h
  | cons a q ih =>
    unfold insertPuback
    split
    · rcases List.mem_cons.1 h with rfl | h
      · simp
      · exact List.mem_cons_of_mem _ (ih h)
    · exact List.mem_cons_of_mem _ h

theorem behind_step {cfg : Config} {c c' : Client} {e : Event} {u : Nat} (h : Behind u c)
    (hen : Enabled c e) (hs : Client5.step cfg c e = .ok c') (hc' : Closing c') : Behind u c' := by
  obtain ⟨hc, h1, h2, op, rest, h3, h4, d, h5, h6, h7⟩ := h
  by_cases he : ∃ env, e = .service env
  · obtain ⟨env, rfl⟩ := he
    change c.service cfg env = .ok c' at hs
    unfold Client.service at hs
    rw [show c.ctl.state = .cleanDisconnect from hc] at hs
    simp only at hs
    unfold Client.serviceCleanDisconnect at hs
    have hops : c.serviceOps cfg env = .ok (c, none) := by
      unfold Client.serviceOps
      split
      · rfl
      · rename_i hx
        exfalso
        apply hx
        unfold Client.serviceTime
        split
        · simp
        · split
          · rename_i hgt
            intro hx
            have := Option.some.inj hx
            omega
          · simp [h1, Client.pendingWork, h3, show c.ctl.state = .cleanDisconnect from hc, h4]
    rw [hops] at hs
    simp only [Client.afterService] at hs
    obtain ⟨new, t1, _, t3, t4, t5, _⟩ := checkTimeouts_aside hs
    refine ⟨hc', t1 ▸ h1, fun w hm => ?_, op, rest, t5 ▸ h3, h4, d, h5, h6, h7⟩
    rw [t3] at hm
    rcases List.mem_append.1 hm with hm | hm
    · exact h2 w hm
    · exact t4 _ _ hm
  · obtain ⟨new, ha⟩ := clean_aside hen hs hc hc' fun env h => he ⟨env, h⟩
    refine ⟨hc', ha.current ▸ h1, fun w hm => ?_, ?_⟩
    · rw [ha.log] at hm
      rcases List.mem_append.1 hm with hm | hm
      · exact h2 w hm
      · exact ha.quiet _ _ hm
    · rcases ha.queued with ⟨more, hq⟩ | ⟨o, _, _, hq, ho, _⟩
      · exact ⟨op, rest ++ more, by rw [hq, h3]; rfl, h4, d, List.mem_append_left _ h5, h6, h7⟩
      · rw [hq, h3]
        unfold insertPuback
        split
        · exact ⟨op, _, rfl, h4, d, mem_insertPuback h5, h6, h7⟩
        · refine ⟨o, _, rfl, ?_, d, List.mem_cons_of_mem _ h5, h6, h7⟩
          cases hp : o.packet <;> rw [hp] at ho <;> first | rfl | cases ho

/-- A DISCONNECT packet behind another operation is never written: it stays there as long as the phase lasts. -/
theorem C32_behind {cfg : Config} {ok : Client → Client → Prop} {c d : Client} {u n : Nat} (h : Behind u c)
    (hp : Phase cfg ok c n d) : Behind u d := by
  induction hp with
  | refl _ => exact h
  | run _ he hs hc _ _ ih => exact behind_step ih he hs hc
  | other _ he hs hc _ ih => exact behind_step ih he hs hc

/-- `Behind`, executable. -/
def behindTest (u : Nat) (c : Client) : Bool :=
  decide (c.ctl.state = .cleanDisconnect) && decide (c.ops.current = none) &&
    c.ops.log.all (fun | .encoded w _ => w != u | _ => true) &&
    match c.ops.queued with
    | [] => false
    | op :: rest => !isDisconnect op.packet && rest.any fun d => d.uid == u && isDisconnect d.packet

theorem behindTest_sound {u : Nat} {c : Client} (h : behindTest u c = true) : Behind u c := by
  unfold behindTest at h
  simp only [Bool.and_eq_true, decide_eq_true_eq, List.all_eq_true] at h
  obtain ⟨⟨⟨h1, h2⟩, h3⟩, h4⟩ := h
  refine ⟨h1, h2, fun w hm => by simpa using h3 _ hm, ?_⟩
  split at h4
  · cases h4
  · rename_i op rest hq
    simp only [Bool.and_eq_true, Bool.not_eq_true', List.any_eq_true, beq_iff_eq] at h4
    obtain ⟨h5, d, h6, h7, h8⟩ := h4
    exact ⟨op, rest, hq, h5, d, h6, h7, h8⟩

/-- Connect, stop with a DISCONNECT packet, and receive a QoS 1 PUBLISH before the service task runs. -/
def crossing (v : DisconnectView) (p : PublishView) (test : Clocked → Clocked → Clocked → Bool) : Bool :=
  match trun {} 0 (fun _ _ _ => true) ⟨Client.new {}, 1, 0⟩ (tconnect {}) with
  | none => false
  | some x =>
    match tstep {} 0 x 1 (.plain (.setDesired .stopped (some v))) with
    | none => false
    | some y =>
      match tstep {} 0 y 1 (.packet (.publish p)) with
      | none => false
      | some z => test x y z

/-- C32 is violated: the PUBACK of a QoS 1 PUBLISH that arrives after `stop` is queued before the DISCONNECT packet.
The service task of the phase only looks for a DISCONNECT packet at the head of the queue. It is not even scheduled any
more, and neither packet is ever written, whatever happens and however often the service task runs. -/
theorem C32_violated : ∃ (x y z : Clocked) (v : DisconnectView) (p : PublishView), Timed {} 0 x ∧
    x.client.ctl.state = .connected ∧ x.client.ctl.desired = .connected ∧
    Timed.Step {} 0 x 1 (.setDesired .stopped (some v)) y ∧ Closing y.client ∧ Next x.client.ops.nextUid v y.client ∧
    p.qos = 1 ∧ Timed.Step {} 0 y 1 (.packet (.publish p) false 1) z ∧ z.scheduled = 0 ∧
    z.client.ops.pendingWrite = false ∧
    ∀ ok n d, Phase {} ok z.client n d → Closing d ∧ ∀ w, ¬ Encoded x.client.ops.nextUid w d := by
  have h : crossing { reasonCode := 0 } { qos := 1, packetId := 7, topic := [97] } (fun x y z =>
      decide (x.client.ctl.state = .connected) && decide (x.client.ctl.desired = .connected) &&
      decide (z.scheduled = 0) && decide (z.client.ops.pendingWrite = false) &&
      behindTest x.client.ops.nextUid z.client) = true := by decide +kernel
  unfold crossing at h
  split at h
  · cases h
  · rename_i x hx
    split at h
    · cases h
    · rename_i y hy
      split at h
      · cases h
      · rename_i z hz
        simp only [Bool.and_eq_true, decide_eq_true_eq] at h
        obtain ⟨⟨⟨⟨h1, h2⟩, h3⟩, h4⟩, h5⟩ := h
        have hb := behindTest_sound h5
        have hsy := (tstep_step hy).1
        have hst : Client5.step {} x.client (.setDesired .stopped (some { reasonCode := 0 })) = .ok y.client := by
          cases hsy; assumption
        obtain ⟨s1, s2, _⟩ := C32_stop h1 h2 hst
        exact ⟨x, y, z, _, _, trun_timed hx (.new 1 (by omega)), h1, h2, hsy, s1, s2, rfl, (tstep_step hz).1, h3, h4,
          fun ok n d hp => ⟨hp.closing, fun w hw => (C32_behind hb hp).2.2.1 _ hw⟩⟩

/-! ## Not vacuous -/

/-- Connect, stop with a DISCONNECT packet, run the service task: the packet is encoded. -/
example : (trun {} 0 (fun _ _ _ => true) ⟨Client.new {}, 1, 0⟩ (tconnect {} ++
    [(1, .plain (.setDesired .stopped (some { reasonCode := 4 }))), (1, .service)])).any
    (fun x => decide (x.client.ctl.state = .cleanDisconnect) &&
      x.client.ops.log.contains (.encoded 1 (.disconnect { reasonCode := 4 }))) = true := by decide +kernel

/-- The same while a write is pending, with an ACK that arrives in between: the service task is scheduled again by the
write completion. -/
example : (trun {} 0 (fun _ _ _ => true) ⟨Client.new {}, 1, 0⟩ (tconnect {} ++
    [(1, .plain (.submit (.publish { qos := 1, topic := [97] }) 0 false)), (1, .service),
      (2, .plain (.setDesired .stopped (some { reasonCode := 4 }))), (2, .packet (.puback { packetId := 1 })),
      (3, .plain (.writeComplete .success)), (3, .service)])).any
    (fun x => decide (x.client.ctl.state = .cleanDisconnect) &&
      x.client.ops.log.contains (.encoded 2 (.disconnect { reasonCode := 4 }))) = true := by decide +kernel

end Mqtt.Props
