import Verif.Lemmas.RrClientHistory
import Verif.Lemmas.RrClientTime

/-!
C44: the completion callback of a submitted request is invoked exactly once.

`submitted id r` is in the log when `aws_mqtt_request_response_client_submit_request` accepts a request; `response` and
`failed` are invocations of its completion callback. `Reachable cfg anything` has all histories. Callbacks are invoked at
most twice in those, and at most once if no service run finds an expired request that has not been taken from the queue
(`Timely`). Nothing is lost: the client cannot terminate before every callback has been invoked.
-/
namespace Mqtt.Props
open Mqtt.RrClient

/-- At most one completion, if no service run finds an expired request in the queue. -/
theorem C44_partial {cfg : Config} {c : Client} (h : RrClient.Reachable cfg Timely c) (id : Nat) :
    completions c.log id ≤ 1 := by
  have hi := (reachable_inv h (strict := true) (fun _ c e hx => hx)).ids id
  unfold IdOk at hi
  split at hi
  · exact hi.2.2.strict rfl
  · rename_i op hg
    obtain ⟨-, -, hi⟩ := hi
    split at hi
    · rcases hi.2.2 with ⟨-, -, -, -, h5, -⟩ | ⟨-, -, -, h4, -⟩ | ⟨h1, -⟩
      · omega
      · omega
      · cases h1
    · have := hi.2.none; omega

/-- At most two completions in any history. -/
theorem C44_atMost {cfg : Config} {c : Client} (h : RrClient.Reachable cfg anything c) (id : Nat) :
    completions c.log id ≤ 2 := by
  have hi := (reachable_inv h (strict := false) (by simp)).ids id
  unfold IdOk at hi
  split at hi
  · exact hi.2.2.atMost
  · rename_i op hg
    obtain ⟨-, -, hi⟩ := hi
    split at hi
    · rcases hi.2.2 with ⟨-, -, -, -, h5, -⟩ | ⟨-, -, -, h4, -⟩ | ⟨-, -, -, h4, -⟩ <;> omega
    · have := hi.2.none; omega

/-- Only requests that were submitted are completed. -/
theorem C44_submitted {cfg : Config} {c : Client} (h : RrClient.Reachable cfg anything c) (id : Nat)
    (hc : 0 < completions c.log id) : wasSubmitted c.log id := by
  have hi := (reachable_inv h (strict := false) (by simp)).ids id
  unfold IdOk at hi
  split at hi
  · exact hi.2.2.submitted hc
  · rename_i op hg
    obtain ⟨-, -, hi⟩ := hi
    split at hi
    · rename_i r _
      exact ⟨r, hi.1⟩
    · have := hi.2.none; omega

/-- At least one completion for everything submitted, in any history that ends with the termination of the client. -/
theorem C44_atLeast {cfg : Config} {c : Client} {now : Nat} (h : RrClient.Reachable cfg anything c)
    (he : RrClient.Enabled c now .terminate) {id : Nat} (hs : wasSubmitted c.log id) : 1 ≤ completions c.log id := by
  have hi := (reachable_inv h (strict := false) (by simp)).ids id
  unfold IdOk at hi
  rw [he.2.2.1] at hi
  exact hi.2.2.atLeast hs

/-- A request is completed before its storage is freed. -/
theorem C44_freed {cfg : Config} {c : Client} (h : RrClient.Reachable cfg anything c) {id : Nat}
    (hs : wasSubmitted c.log id) (hg : c.ops.get id = none) : 1 ≤ completions c.log id := by
  have hi := (reachable_inv h (strict := false) (by simp)).ids id
  unfold IdOk at hi
  rw [hg] at hi
  exact hi.2.2.atLeast hs

/-- A history is also one without restriction. -/
theorem rrTimely_anything {cfg : Config} {c : Client} (h : RrClient.Reachable cfg Timely c) :
    RrClient.Reachable cfg anything c := by
  induction h with
  | new => exact .new
  | step _ h1 h2 h3 _ h5 ih => exact ih.step h1 h2 h3 trivial h5
  | rehash _ h1 ih => exact ih.rehash h1

/-- Exactly one completion when the client terminates. -/
theorem C44_exactly_partial {cfg : Config} {c : Client} {now : Nat} (h : RrClient.Reachable cfg Timely c)
    (he : RrClient.Enabled c now .terminate) {id : Nat} (hs : wasSubmitted c.log id) : completions c.log id = 1 := by
  have h1 := C44_partial h id
  have h2 := C44_atLeast (rrTimely_anything h) he hs
  omega

/-- A request that was accepted at time `t` has its timeout at `t + T`. -/
theorem rrc_deadline {cfg : RrClient.Config} {c0 c1 c : Client} {t : Nat} {r : Request}
    (h0 : RrClient.Reachable cfg anything c0) (ht0 : c0.terminated = false) (hc0 : c0.clock ≤ t)
    (he0 : RrClient.Enabled c0 t (.submit r)) (hv : r.valid = true)
    (hs : stepAt cfg { c0 with clock := t } t (.submit r) = .ok c1) (hl : Later cfg anything c1 c) :
    RrClient.Reachable cfg anything c ∧ wasSubmitted c.log c0.nextId ∧
    ∀ op, c.ops.get c0.nextId = some op → (∃ r, op.body = .request r) ∧
      op.timeout ≤ t + cfg.timeoutSeconds * 1000000000 := by
  have h1 := h0.step ht0 hc0 he0 trivial hs
  have hg := hl.grows h1
  simp only [stepAt, Client.submitRequest, hv, if_true, Except.ok.injEq] at hs
  refine ⟨hl.reachable h1, ⟨r, hg.log.subset ?_⟩, ?_⟩
  · rw [← hs]; simp
  · intro op hop
    obtain ⟨o, a1, a2, a3⟩ := hg.ops c0.nextId (by rw [← hs]; exact Nat.lt_succ_self _) op hop
    rw [← hs] at a1
    simp only [AMap.get_set, if_true, Option.some.injEq] at a1
    rw [a2, a3, ← a1]
    exact ⟨⟨r, rfl⟩, Nat.mod_le _ _⟩

/-- A request that was accepted at time `t` is completed by every service run at or after `t + T`, if the task that takes
it over has run. -/
theorem C44_timeout {cfg : RrClient.Config} {c0 c1 c c' : Client} {t now : Nat} {r : Request} {env : RrClient.Env}
    {expired : List Nat} (h0 : RrClient.Reachable cfg anything c0) (ht0 : c0.terminated = false) (hc0 : c0.clock ≤ t)
    (he0 : RrClient.Enabled c0 t (.submit r)) (hv : r.valid = true)
    (hs : stepAt cfg { c0 with clock := t } t (.submit r) = .ok c1) (hl : Later cfg anything c1 c)
    (hp : c.phase = .active) (hq : Task.submit c0.nextId ∉ c.tasks) (hn : c.clock ≤ now)
    (hd : t + cfg.timeoutSeconds * 1000000000 ≤ now) (he : RrClient.Enabled c now (.service env expired))
    (hr : stepAt cfg { c with clock := now } now (.service env expired) = .ok c') :
    1 ≤ completions c'.log c0.nextId := by
  obtain ⟨h2, h3, h4⟩ := rrc_deadline h0 ht0 hc0 he0 hv hs hl
  have hinv := reachable_inv h2 (strict := false) (by simp)
  have htime := reachable_time h2
  have hgr := (step_time hinv htime hn he hr).2
  have hmono := completions_prefix hgr.log c0.nextId
  by_cases hz : completions c.log c0.nextId = 0
  · cases hg : c.ops.get c0.nextId with
    | none => have := C44_freed h2 h3 hg; omega
    | some op =>
      obtain ⟨⟨r', hb⟩, hto⟩ := h4 op hg
      have hid := hinv.ids c0.nextId
      unfold IdOk at hid
      rw [hg] at hid
      simp only [hb, List.nil_append] at hid
      have htr : op.tracked = true := by
        rcases hid.2.2.2.2 with ⟨-, -, -, -, -, h6⟩ | ⟨-, -, -, h5, -⟩ | ⟨-, -, -, h5, -⟩
        · cases hx : op.tracked with
          | true => rfl
          | false =>
            have := h6 hx
            rw [List.count_eq_zero.2 hq] at this
            cases this
        · omega
        · omega
      have hm := htime.heap (by rw [hp]; simp) _ op r' hg hb htr hz
      obtain ⟨_, _, hperm, _⟩ := he
      refine (service_time (hinv.at now) (htime.at hn) (fun i hi => (List.mem_filter.1 (hperm.mem_iff.1 hi)).1) hr).2.2 hp _ ?_
      refine hperm.mem_iff.2 (List.mem_filter.2 ⟨hm, ?_⟩)
      unfold Client.timeoutOf
      rw [hg]
      simp only [Option.map_some, Option.getD_some, decide_eq_true_eq]
      omega
  · omega

/-- Such a service run is scheduled, for `t + T` at the latest. -/
theorem C44_scheduled {cfg : RrClient.Config} {c0 c1 c : Client} {t : Nat} {r : Request}
    (h0 : RrClient.Reachable cfg anything c0) (ht0 : c0.terminated = false) (hc0 : c0.clock ≤ t)
    (he0 : RrClient.Enabled c0 t (.submit r)) (hv : r.valid = true)
    (hs : stepAt cfg { c0 with clock := t } t (.submit r) = .ok c1) (hl : Later cfg anything c1 c)
    (hp : c.phase = .active) (hq : Task.submit c0.nextId ∉ c.tasks) (hz : completions c.log c0.nextId = 0)
    (hu : c.clock + cfg.timeoutSeconds * 1000000000 < 2 ^ 64) :
    c.scheduled ≠ 0 ∧ c.scheduled ≤ max (t + cfg.timeoutSeconds * 1000000000) c.clock := by
  obtain ⟨h2, h3, h4⟩ := rrc_deadline h0 ht0 hc0 he0 hv hs hl
  have hinv := reachable_inv h2 (strict := false) (by simp)
  have htime := reachable_time h2
  obtain ⟨h5, h6⟩ := htime.next (by unfold u64 Config.timeout; exact hu) hp
  refine ⟨h5, ?_⟩
  cases hg : c.ops.get c0.nextId with
  | none => have := C44_freed h2 h3 hg; rw [hz] at this; cases this
  | some op =>
    obtain ⟨⟨r', hb⟩, hto⟩ := h4 op hg
    have hid := hinv.ids c0.nextId
    unfold IdOk at hid
    rw [hg] at hid
    simp only [hb, List.nil_append] at hid
    have htr : op.tracked = true := by
      rcases hid.2.2.2.2 with ⟨-, -, -, -, -, h6⟩ | ⟨-, -, -, h5, -⟩ | ⟨-, -, -, h5, -⟩
      · cases hx : op.tracked with
        | true => rfl
        | false =>
          have := h6 hx
          rw [List.count_eq_zero.2 hq] at this
          cases this
      · omega
      · omega
    have hm := htime.heap (by rw [hp]; simp) _ op r' hg hb htr hz
    have h7 := h6 _ hm
    unfold Client.timeoutOf at h7
    rw [hg] at h7
    simp only [Option.map_some, Option.getD_some] at h7
    clear hu h2 h3 h4 hs he0
    generalize cfg.timeoutSeconds * 1000000000 = T at hto ⊢
    omega

/-- A client with two request subscriptions, one for streams and a timeout of 60 seconds. -/
def rrcCfg : RrClient.Config := { manager := ⟨2, 1⟩, timeoutSeconds := 60 }

/-- A request without correlation token for the topic `r`, with a response on `t`. -/
def rrcRequest (filter : Bytes) : Request :=
  { filters := [filter], paths := [⟨[116], []⟩], token := [], topic := [114], payload := [1] }

/-- A response on `t`. -/
def rrcResponse : Message := { topic := [116], payload := [2], json := none }

/-- A request is sent, answered, and the client is shut down. -/
def rrcGood : History :=
  [ (1, .task {} 0), (1, .submit (rrcRequest [116])), (1, .task {} 0), (1, .service {} []),
    (2, .finished {} [116] .subscribe true false), (2, .task {} 0), (3, .publishDone 1 true), (4, .publish rrcResponse),
    (4, .task {} 0), (4, .task {} 0), (5, .release), (5, .task {} 0), (6, .adapterTerminated) ]

/-- It is completed once. -/
example : ∃ c, RrClient.Reachable rrcCfg Timely c ∧ RrClient.Enabled c 7 .terminate ∧ wasSubmitted c.log 1 ∧
    c.log = [.initialized, .submitted 1 (rrcRequest [116]), .published 1 [114] [1], .response 1 [116] [2]] := by
  have hs : (play rrcCfg {} rrcGood).isSome = true := by decide +kernel
  obtain ⟨c, hc⟩ := Option.isSome_iff_exists.1 hs
  have hr := play_timely .new (by decide +kernel) (by decide +kernel) hc
  have hl : (play rrcCfg {} rrcGood).map (fun c => (c.log, RrClient.enabled c 7 .terminate)) =
      some ([.initialized, .submitted 1 (rrcRequest [116]), .published 1 [114] [1], .response 1 [116] [2]], true) := by
    decide +kernel
  rw [hc] at hl
  simp only [Option.map_some, Option.some.injEq, Prod.mk.injEq] at hl
  exact ⟨c, hr, enabled_sound hl.2, ⟨rrcRequest [116], by rw [hl.1]; simp⟩, hl.1⟩

/-- A request accepted at time 5 that is not answered; the service run is due when the hypotheses of `C44_timeout` hold. -/
example : ∃ c0 c1 c, RrClient.Reachable rrcCfg anything c0 ∧ c0.terminated = false ∧ c0.clock ≤ 5 ∧
    RrClient.Enabled c0 5 (.submit (rrcRequest [116])) ∧ (rrcRequest [116]).valid = true ∧
    stepAt rrcCfg { c0 with clock := 5 } 5 (.submit (rrcRequest [116])) = .ok c1 ∧ Later rrcCfg anything c1 c ∧
    c.phase = .active ∧ Task.submit c0.nextId ∉ c.tasks ∧ c.clock ≤ 60000000005 ∧
    RrClient.Enabled c 60000000005 (.service {} [1]) ∧ completions c.log c0.nextId = 0 ∧ c.scheduled = 60000000005 ∧
    ∃ c', stepAt rrcCfg { c with clock := 60000000005 } 60000000005 (.service {} [1]) = .ok c' := by
  have key : ∃ c0 c, RrClient.Reachable rrcCfg anything c0 ∧
      Later rrcCfg anything (Client.submitRequest rrcCfg { c0 with clock := 5 } 5 (rrcRequest [116])) c ∧
      (c0.terminated = false ∧ c0.clock ≤ 5 ∧ RrClient.enabled c0 5 (.submit (rrcRequest [116])) = true ∧
        c.phase = .active ∧ Task.submit c0.nextId ∉ c.tasks ∧ c.clock ≤ 60000000005 ∧
        RrClient.enabled c 60000000005 (.service {} [1]) = true ∧ completions c.log c0.nextId = 0 ∧
        c.scheduled = 60000000005) := by
    refine ⟨(play rrcCfg {} [(1, .task {} 0)]).getD {},
      (play rrcCfg (Client.submitRequest rrcCfg { (play rrcCfg {} [(1, .task {} 0)]).getD {} with clock := 5 } 5
        (rrcRequest [116])) [(5, .task {} 0), (5, .service {} []), (6, .finished {} [116] .subscribe true false),
          (6, .task {} 0)]).getD {}, ?_, ?_, ?_⟩
    · exact play_anything .new (h := [(1, .task {} 0)]) (by decide +kernel)
        (eq_some_getD _ (by decide +kernel))
    · exact play_later (h := [(5, .task {} 0), (5, .service {} []), (6, .finished {} [116] .subscribe true false),
          (6, .task {} 0)]) .refl (by decide +kernel) (eq_some_getD _ (by decide +kernel))
    · decide +kernel
  obtain ⟨c0, c, h0, hl, a1, a2, a3, a4, a5, a6, a7, a8, a9⟩ := key
  have h1 : RrClient.Reachable rrcCfg anything c := hl.reachable (h0.step a1 a2 (enabled_sound a3) trivial rfl)
  obtain ⟨c', hc', _⟩ := step_ok (reachable_inv h1 (strict := false) (by simp)) (enabled_sound a7) (by simp)
  exact ⟨c0, _, c, h0, a1, a2, enabled_sound a3, by decide +kernel, rfl, hl, a4, a5, a6, enabled_sound a7, a8, a9, c', hc'⟩

/-- Two requests without correlation token. The first one is not answered in time, so that the second one has not left the
queue when its time is over. The service run fails the second request and then takes it from the queue. The late response
to the first request arrives before the second one is freed. -/
def rrcTwice : History :=
  [ (1, .task {} 0), (1, .submit (rrcRequest [116])), (1, .task {} 0), (1, .service {} []),
    (2, .finished {} [116] .subscribe true false), (2, .task {} 0),
    (3, .submit (rrcRequest [43])), (3, .task {} 0), (3, .service {} []),
    (60000000001, .service {} [1]), (60000000001, .task {} 0),
    (60000000003, .service {} [2]), (60000000003, .publish rrcResponse) ]

/-- **C44 is violated**: a request is completed twice, first with a timeout and then with a response. -/
theorem C44_violated : ∃ cfg c id, RrClient.Reachable cfg anything c ∧ completions c.log id = 2 ∧
    Trace.failed id .timeout ∈ c.log ∧ Trace.response id [116] [2] ∈ c.log := by
  have hs : (play rrcCfg {} rrcTwice).isSome = true := by decide +kernel
  obtain ⟨c, hc⟩ := Option.isSome_iff_exists.1 hs
  have hr := play_anything .new (by decide +kernel) hc
  have hl : (play rrcCfg {} rrcTwice).map (fun c => (completions c.log 2, c.log.contains (.failed 2 .timeout),
      c.log.contains (.response 2 [116] [2]))) = some (2, true, true) := by decide +kernel
  rw [hc] at hl
  simp only [Option.map_some, Option.some.injEq, Prod.mk.injEq, List.contains_iff_mem] at hl
  exact ⟨rrcCfg, c, 2, hr, hl.1, hl.2.1, hl.2.2⟩

end Mqtt.Props
