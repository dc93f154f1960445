import Verif.Lemmas.RrClientStreams
import Verif.Props.C09

/-! What an incoming publish does to the request-response client. -/
namespace Mqtt.RrClient

open Mqtt.Rr (Kind Status StatusType Action Acquired Manager matchesType)

/-- A stream that gets what is delivered to it. -/
def live (ops : AMap Nat Op) (i : Nat) : Bool :=
  match ops.get i with
  | none => false
  | some op =>
    match op.body with
    | .request _ => false
    | .stream _ => !(op.state == .pendingDestroy || op.state == .terminal)

/-- The callbacks of a delivery. -/
def delivered (msg : Message) (ids : List Nat) : List Trace := ids.map fun i => .delivered i msg.topic msg.payload

theorem deliver_eq {msg : Message} {ids : List Nat} {c c' : Client} (h : c.deliver msg ids = .ok c') :
    c' = { c with log := c.log ++ delivered msg (ids.filter (live c.ops)) } := by
  unfold Client.deliver at h
  induction ids generalizing c with
  | nil => cases h; simp [delivered]
  | cons i is ih =>
    unfold each at h
    split at h
    · cases h
    · rename_i c1 h1
      have := ih h
      rw [this]
      unfold Client.deliverOne at h1
      split at h1
      · cases h1
      · rename_i op hg
        split at h1
        · rename_i r hb
          cases h1
          have hl : live c.ops i = false := by simp [live, hg, hb]
          simp [hl]
        · rename_i f hb
          split at h1
          · rename_i hst
            cases h1
            have hl : live c.ops i = false := by
              simp only [live, hg, hb]
              rcases hst with hst | hst <;> simp [hst]
            simp [hl]
          · rename_i hst
            cases h1
            have hl : live c.ops i = true := by
              simp only [live, hg, hb]
              simp only [not_or] at hst
              simp [hst.1, hst.2]
            simp [hl, delivered]

theorem deliverWildcards_eq {msg : Message} {m : AMap Bytes (List Nat)} {c c' : Client}
    (h : Client.deliverWildcards msg c m = .ok c') :
    c' = { c with log := c.log ++ delivered msg (((m.filter fun e => matchesFilter msg.topic e.1).flatMap (·.2)).filter
      (live c.ops)) } := by
  induction m generalizing c with
  | nil => cases h; simp [delivered]
  | cons x m ih =>
    obtain ⟨f, ids⟩ := x
    unfold Client.deliverWildcards at h
    split at h
    · rename_i hm
      split at h
      · cases h
      · rename_i c1 h1
        rw [ih h, deliver_eq h1]
        simp [hm, delivered]
    · rename_i hm
      rw [ih h]
      simp [hm]

/-- Streams a publish is delivered to. -/
def receivers (c : Client) (topic : Bytes) : List Nat :=
  ((c.streams.get topic).getD [] ++ (c.wildcards.filter fun e => matchesFilter topic e.1).flatMap (·.2)).filter (live c.ops)

theorem onPublish_eq {cfg : Config} {c c' : Client} {msg : Message} (hp : c.phase = .active)
    (h : c.onPublish cfg msg = .ok c') : ∃ c1, c1 = { c with log := c.log ++ delivered msg (receivers c msg.topic) } ∧
      (c.paths.get msg.topic = none → c' = c1) ∧
      ∀ e, c.paths.get msg.topic = some e → c1.applyResponse cfg e msg = .ok c' := by
  unfold Client.onPublish at h
  rw [if_neg (by rw [hp]; simp)] at h
  split at h
  · cases h
  · rename_i c1 h1
    have h1 : c1 = { c with log := c.log ++ delivered msg (((c.streams.get msg.topic).getD []).filter (live c.ops)) } := by
      unfold Client.deliverExact at h1
      split at h1
      · rename_i hx
        cases h1
        simp [hx, delivered]
      · rename_i ids hx
        rw [deliver_eq h1]
        simp [hx]
    split at h
    · cases h
    · rename_i c2 h2
      have h2 := deliverWildcards_eq h2
      rw [h1] at h2
      have h2 : c2 = { c with log := c.log ++ delivered msg (receivers c msg.topic) } := by
        rw [h2]
        simp [receivers, delivered]
      refine ⟨c2, h2, ?_, ?_⟩
      · intro hx
        rw [show c2.paths = c.paths by rw [h2], hx] at h
        cases h
        rfl
      · intro e hx
        rw [show c2.paths = c.paths by rw [h2], hx] at h
        exact h

/-- A response is for the request whose correlation token it carries. -/
theorem respond_log {c c' : Client} {token : Bytes} {msg : Message} (h : c.respond token msg = .ok c') :
    (c'.log = c.log ∧ ∀ id op, c.tokens.get token = some id → c.ops.get id = some op → op.state = .pendingDestroy) ∨
    ∃ id op, c.tokens.get token = some id ∧ c.ops.get id = some op ∧ op.state ≠ .pendingDestroy ∧
      c'.log = c.log ++ [.response id msg.topic msg.payload] := by
  unfold Client.respond at h
  split at h
  · rename_i hx
    cases h
    exact .inl ⟨rfl, fun id op hy => by rw [hx] at hy; cases hy⟩
  · rename_i id hx
    split at h
    · cases h
    · rename_i op hg
      split at h
      · cases h
      · split at h
        · rename_i hst
          cases h
          refine .inl ⟨rfl, ?_⟩
          intro j o hy hgo
          rw [hx] at hy
          cases hy
          rw [hg] at hgo
          cases hgo
          exact hst
        · rename_i hst
          refine .inr ⟨id, op, hx, hg, hst, ?_⟩
          rw [releaseOp_eq (op := { op with state := .pendingDestroy }) (by simp)] at h
          cases h
          split <;> rfl

/-- An entry that is not the result of an incoming publish. -/
def noAnswer : Trace → Bool
  | .response .. | .delivered .. => false
  | _ => true

/-- No response, no delivery. -/
def Mum (c c' : Client) : Prop := ∃ new, c'.log = c.log ++ new ∧ ∀ e ∈ new, noAnswer e = true

theorem Mum.refl (c : Client) : Mum c c := ⟨[], by simp, by simp⟩

theorem Mum.trans {a b c : Client} (h : Mum a b) (h' : Mum b c) : Mum a c := by
  obtain ⟨n1, e1, p1⟩ := h
  obtain ⟨n2, e2, p2⟩ := h'
  refine ⟨n1 ++ n2, by rw [e2, e1, List.append_assoc], ?_⟩
  intro e he
  rcases List.mem_append.1 he with he | he
  · exact p1 e he
  · exact p2 e he

theorem Mum.log {c c' : Client} (h : c'.log = c.log) : Mum c c' := ⟨[], by simp [h], by simp⟩

theorem Mum.after {a c c' : Client} (h : Mum c c') (hl : c.log = a.log) : Mum a c' := (Mum.log hl).trans h

theorem Mum.one {c c' : Client} {e : Trace} (h : c'.log = c.log ++ [e]) (he : noAnswer e = true) : Mum c c' :=
  ⟨[e], h, by simpa using he⟩

theorem releaseOp_mum {c c' : Client} {id : Nat} (h : c.releaseOp id = .ok c') : Mum c c' := by
  unfold Client.releaseOp at h
  split at h
  · cases h
  · simp only [Except.ok.injEq] at h
    rw [← h]
    split <;> exact .log rfl

theorem failRequest_mum {c c' : Client} {id : Nat} {e : Failure} (h : c.failRequest id e = .ok c') : Mum c c' := by
  unfold Client.failRequest at h
  split at h
  · cases h
  · split at h
    · cases h
    · split at h
      · cases h; exact .refl _
      · exact Mum.trans (.one (e := .failed id e) rfl rfl) (releaseOp_mum h)

theorem halt_mum {c c' : Client} {id : Nat} {e : Failure} (h : c.halt id e = .ok c') : Mum c c' := by
  unfold Client.halt at h
  split at h
  · cases h
  · split at h
    · cases h
    · split at h
      · cases h; exact .refl _
      · cases h; exact .one rfl rfl

theorem failOp_mum {c c' : Client} {id : Nat} {e : Failure} (h : c.failOp id e = .ok c') : Mum c c' := by
  unfold Client.failOp at h
  split at h
  · cases h
  · split at h
    · exact halt_mum h
    · exact failRequest_mum h

theorem publishDone_mum {c c' : Client} {id : Nat} {ok : Bool} (h : c.publishDone id ok = .ok c') : Mum c c' := by
  unfold Client.publishDone at h
  simp only at h
  split at h
  · cases h; exact .log rfl
  · split at h
    · cases h; exact .log rfl
    · split at h
      · exact (failRequest_mum h).after rfl
      · cases h; exact .log rfl

theorem makeRequest_mum {c c' : Client} {env : Env} {id : Nat} (h : c.makeRequest env id = .ok c') : Mum c c' := by
  unfold Client.makeRequest at h
  split at h
  · cases h
  · split at h
    · cases h
    · split at h
      · cases h; exact .one rfl rfl
      · exact failRequest_mum h

theorem absorb_mum {c c' : Client} {m : Manager} (h : c.absorb m = .ok c') : Mum c c' := by
  unfold Client.absorb at h
  simp only at h
  split at h
  · cases h
  · cases h; exact .log rfl

theorem manage_mum {c c' : Client} {m : Except Rr.Fault Manager} (h : c.manage m = .ok c') : Mum c c' := by
  unfold Client.manage at h
  split at h
  · cases h
  · exact absorb_mum h

theorem requestStatus_mum {c c' : Client} {env : Env} {id : Nat} {t : StatusType} (h : c.requestStatus env id t = .ok c') :
    Mum c c' := by
  unfold Client.requestStatus at h
  split at h
  · cases h
  · split at h
    · exact failRequest_mum h
    · exact failRequest_mum h
    · split at h
      · split at h
        · exact (makeRequest_mum h).after rfl
        · cases h; exact .log rfl
      · cases h; exact .refl _
    · cases h

theorem streamStatus_mum {c c' : Client} {id : Nat} {t : StatusType} (h : c.streamStatus id t = .ok c') : Mum c c' := by
  unfold Client.streamStatus at h
  split at h
  · cases h
  · split at h
    · cases h; exact .one rfl rfl
    · cases h; exact .one rfl rfl
    · exact halt_mum h
    · cases h

theorem wake_mum (c : Client) (now : Nat) : Mum c (c.wake now) := by
  rw [wake_eq]
  exact .log rfl

theorem onStatus_mum {c c' : Client} {s : Status} {env : Env} {now : Nat} (hr : c.onStatus env now s = .ok c') :
    Mum c c' := by
  unfold Client.onStatus at hr
  split at hr
  · cases hr; exact wake_mum ..
  · cases hr; exact wake_mum ..
  · split at hr
    · cases hr; exact .refl _
    · split at hr
      · split at hr
        · exact requestStatus_mum hr
        · exact requestStatus_mum hr
        · exact requestStatus_mum hr
        · exact streamStatus_mum hr
      · cases hr; exact .refl _

theorem each_mum {g : Client → Nat → Except Fault Client} (hg : ∀ c i c', g c i = .ok c' → Mum c c') {is : List Nat}
    {c c' : Client} (h : each g c is = .ok c') : Mum c c' := by
  induction is generalizing c with
  | nil => cases h; exact .refl _
  | cons i is ih =>
    unfold each at h
    split at h
    · cases h
    · rename_i c1 h1
      exact (hg _ _ _ h1).trans (ih h)

theorem addToTables_mum (c : Client) (id : Nat) (op : Op) : Mum c (c.addToTables id op) :=
  .log (addToTables_fields c id op).2.1

theorem setState_mum (c : Client) (id : Nat) (s : OpState) : Mum c (c.setState id s) := by
  unfold Client.setState
  split <;> exact .log rfl

theorem onAcquired_mum {c c' : Client} {env : Env} {id : Nat} {res : Acquired} (h : c.onAcquired env id res = .ok c') :
    Mum c c' := by
  unfold Client.onAcquired at h
  split at h
  · cases h
  · rename_i op hg
    split at h
    · exact failOp_mum h
    · exact failOp_mum h
    · cases h; exact .refl _
    · cases h; exact (addToTables_mum c id op).trans (setState_mum _ id _)
    · simp only at h
      split at h
      · cases h
        exact ((addToTables_mum c id op).trans (setState_mum _ id .subscribed)).trans (.one rfl rfl)
      · exact (addToTables_mum c id op).trans (makeRequest_mum h)

theorem dequeue_mum {cfg : Config} {env : Env} {q : List Nat} {c c' : Client} (h : Client.dequeue cfg env c q = .ok c') :
    Mum c c' := by
  induction q generalizing c with
  | nil => cases h; exact .refl _
  | cons id q ih =>
    unfold Client.dequeue at h
    split at h
    · cases h
    · split at h
      · split at h
        · cases h
        · split at h
          · cases h
          · rename_i c1 h1
            have h1 := absorb_mum h1
            split at h
            · cases h; exact h1
            · split at h
              · cases h
              · rename_i c2 h2
                exact (h1.trans ((Mum.log rfl : Mum c1 { c1 with queue := q }).trans (onAcquired_mum h2))).trans (ih h)
      · cases h; exact .refl _

theorem service_mum {cfg : Config} {c c' : Client} {env : Env} {expired : List Nat}
    (hr : c.service cfg env expired = .ok c') : Mum c c' := by
  unfold Client.service at hr
  split at hr
  · cases hr; exact .log rfl
  · split at hr
    · cases hr
    · rename_i c1 h1
      have h1 : Mum c c1 := (each_mum (by
        intro c i c' hx
        exact (failOp_mum hx).after rfl) h1).after rfl
      split at hr
      · cases hr
      · rename_i c2 h2
        cases hr
        unfold Client.processQueue at h2
        split at h2
        · cases h2
        · rename_i c3 h3
          exact ((h1.trans (manage_mum h3)).trans (dequeue_mum h2)).trans (.log rfl)

theorem submit_mum {c c' : Client} {now id : Nat} (hr : c.submit now id = .ok c') : Mum c c' := by
  unfold Client.submit at hr
  split at hr
  · cases hr
  · split at hr
    · split at hr
      · cases hr
      · rename_i c1 h1
        exact (failOp_mum h1).trans (releaseOp_mum hr)
    · simp only at hr
      exact ((wake_mum _ now).trans (releaseOp_mum hr)).after rfl

theorem destroy_mum {c c' : Client} {id : Nat} (hr : c.destroy id = .ok c') : Mum c c' := by
  unfold Client.destroy at hr
  split at hr
  · cases hr
  · rename_i op hg
    simp only at hr
    split at hr
    · cases hr
    · rename_i c1 h1
      have h1 : Mum c c1 := by
        split at h1
        · exact (absorb_mum h1).after rfl
        · cases h1; exact .log rfl
      refine h1.trans ?_
      simp only [Except.ok.injEq] at hr
      rw [← hr]
      obtain ⟨x1, _⟩ := removeFromTables_log c1 op
      rcases Body.cases op.body with ⟨f, hb⟩ | ⟨r, hb⟩
      · refine .one (e := .closedDown id) ?_ rfl
        simp only [hb]
        rw [x1]
      · refine .log ?_
        simp only [hb]
        rw [x1]

theorem step_mum {cfg : Config} {c c' : Client} {now : Nat} {e : Event} (he : ∀ msg, e ≠ .publish msg)
    (hr : stepAt cfg c now e = .ok c') : Mum c c' := by
  cases e with
  | submit r =>
    cases hr
    unfold Client.submitRequest
    split
    · exact .one rfl rfl
    · exact .refl _
  | openStream f =>
    cases hr
    unfold Client.openStream
    split
    · exact .one rfl rfl
    · exact .refl _
  | activate id =>
    simp only [stepAt, Client.activate] at hr
    split at hr
    · cases hr
    · split at hr
      · cases hr; exact .refl _
      · cases hr; exact .log rfl
  | close id =>
    simp only [stepAt, Client.close] at hr
    split at hr
    · cases hr
    · exact Mum.trans (.one (e := .closed id) rfl rfl) (releaseOp_mum hr)
  | release => cases hr; exact .log rfl
  | task env k =>
    simp only [stepAt] at hr
    split at hr
    · cases hr; exact .refl _
    · rename_i t _
      refine Mum.trans (b := { c with tasks := c.tasks.eraseIdx k }) (.log rfl) ?_
      cases t with
      | «initialize» =>
        cases hr
        unfold Client.initialize
        split <;> exact .one (e := .initialized) rfl rfl
      | status s => exact onStatus_mum hr
      | submit id => exact submit_mum hr
      | destroy id => exact destroy_mum hr
      | shutdown =>
        simp only [Client.run, Client.shutdown] at hr
        split at hr
        · cases hr
        · rename_i c1 x1
          have y1 := manage_mum x1
          split at hr
          · cases hr
          · rename_i c2 x2
            have y2 := each_mum (fun _ _ _ hx => publishDone_mum hx) x2
            have y3 := each_mum (fun _ _ _ hx => failOp_mum hx) hr
            exact ((y1.trans y2).trans y3).after rfl
  | service env expired => exact service_mum hr
  | finished env f a ok retryable =>
    simp only [stepAt] at hr
    split at hr
    · cases hr; exact .refl _
    · exact manage_mum hr
  | connection env up joined =>
    simp only [stepAt] at hr
    split at hr
    · cases hr; exact .refl _
    · exact manage_mum hr
  | publish msg => exact absurd rfl (he msg)
  | publishDone id ok => exact publishDone_mum hr
  | adapterTerminated => cases hr; exact .log rfl
  | terminate =>
    simp only [stepAt] at hr
    split at hr
    · cases hr
    · cases hr; exact .one rfl rfl

end Mqtt.RrClient
