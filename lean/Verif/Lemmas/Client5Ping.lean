import Verif.Lemmas.Client5Faults
import Verif.Timing5

/-!
What the events of the MQTT 5 client do to its keep-alive times.
-/
namespace Mqtt.Client5

open Mqtt.V5

/-- Effects that are about pings. -/
def Effect.aboutPing : Effect → Bool
  | .pingQueued _ => true
  | .encoded _ p => decide (p = .pingreq)
  | _ => false

/-- The time of the next ping does not change; the deadline for the response is set exactly when a PINGREQ has been
sent. -/
def Pings (cfg : Config) (t : Nat) (c c' : Client) : Prop :=
  ∃ new, c'.ops.log = c.ops.log ++ new ∧ c'.ctl.settings = c.ctl.settings ∧ c'.ctl.nextPing = c.ctl.nextPing ∧
    (∀ u, .pingQueued u ∉ new) ∧
    ((c'.ctl.pingTimeout = c.ctl.pingTimeout ∧ ∀ u, .encoded u .pingreq ∉ new) ∨
     (c'.ctl.pingTimeout = pingDeadline cfg.pingTimeoutMs c.ctl.settings.serverKeepAlive t ∧
      ∃ u, .encoded u .pingreq ∈ new))

theorem Pings.trans {cfg : Config} {t : Nat} {a b c : Client} (h : Pings cfg t a b) (h' : Pings cfg t b c) :
    Pings cfg t a c := by
  obtain ⟨n1, a1, a2, a3, a4, a5⟩ := h
  obtain ⟨n2, b1, b2, b3, b4, b5⟩ := h'
  refine ⟨n1 ++ n2, by rw [b1, a1, List.append_assoc], b2.trans a2, b3.trans a3, fun u hu => ?_, ?_⟩
  · rcases List.mem_append.1 hu with hu | hu
    · exact a4 u hu
    · exact b4 u hu
  · rcases b5 with ⟨b5, b6⟩ | ⟨b5, u, b6⟩
    · rcases a5 with ⟨a5, a6⟩ | ⟨a5, u, a6⟩
      · exact .inl ⟨b5.trans a5, fun u hu => (List.mem_append.1 hu).elim (a6 u) (b6 u)⟩
      · exact .inr ⟨b5.trans a5, u, List.mem_append_left _ a6⟩
    · exact .inr ⟨by rw [b5, a2], u, List.mem_append_right _ b6⟩

/-- Control states with the same keep-alive times. -/
def SamePing (k k' : Control) : Prop :=
  k'.settings = k.settings ∧ k'.nextPing = k.nextPing ∧ k'.pingTimeout = k.pingTimeout

theorem SamePing.refl (k : Control) : SamePing k k := ⟨rfl, rfl, rfl⟩

theorem SamePing.trans {a b c : Control} (h : SamePing a b) (h' : SamePing b c) : SamePing a c :=
  ⟨h'.1.trans h.1, h'.2.1.trans h.2.1, h'.2.2.trans h.2.2⟩

theorem emitFinal_ping (k : Control) (e : Error) : SamePing k (k.emitFinal e) := by
  unfold Control.emitFinal; split <;> exact ⟨rfl, rfl, rfl⟩

theorem shutdownChannel_ping (k : Control) (e : Error) : SamePing k (k.shutdownChannel e) := by
  unfold Control.shutdownChannel
  generalize (if e = .success then Error.other 0 else e) = e
  have h := emitFinal_ping k e
  dsimp only
  split
  · exact h
  · split
    · exact h
    · exact ⟨h.1, h.2.1, h.2.2⟩

theorem onComplete_ping (k : Control) (p : Outgoing) (e : Error) : SamePing k (k.onComplete p e) := by
  unfold Control.onComplete
  split
  · exact shutdownChannel_ping ..
  · exact .refl _

theorem onCompleteAll_ping (k : Control) (ops : List Op) (e : Error) : SamePing k (k.onCompleteAll ops e) := by
  unfold Control.onCompleteAll
  induction ops generalizing k with
  | nil => exact .refl _
  | cons op ops ih => exact (onComplete_ping k op.packet e).trans (ih _)

/-- Nothing about pings happens. -/
def Quiet (c c' : Client) : Prop :=
  (∃ new, c'.ops.log = c.ops.log ++ new ∧ ∀ e ∈ new, e.aboutPing = false) ∧ SamePing c.ctl c'.ctl

theorem Quiet.of {c c' : Client} (new : List Effect) (hl : c'.ops.log = c.ops.log ++ new)
    (hn : ∀ e ∈ new, e.aboutPing = false) (h : SamePing c.ctl c'.ctl) : Quiet c c' :=
  ⟨⟨new, hl, hn⟩, h⟩

theorem Quiet.ctl {c c' : Client} (hl : c'.ops.log = c.ops.log) (h : SamePing c.ctl c'.ctl) : Quiet c c' :=
  .of [] (by rw [hl]; simp) (by simp) h

theorem Quiet.refl (c : Client) : Quiet c c := .ctl rfl (.refl _)

theorem Quiet.trans {a b c : Client} (h : Quiet a b) (h' : Quiet b c) : Quiet a c := by
  obtain ⟨⟨n1, a1, a2⟩, a3⟩ := h
  obtain ⟨⟨n2, b1, b2⟩, b3⟩ := h'
  exact ⟨⟨n1 ++ n2, by rw [b1, a1, List.append_assoc], fun e he => (List.mem_append.1 he).elim (a2 e) (b2 e)⟩,
    a3.trans b3⟩

theorem Quiet.pings {cfg : Config} {t : Nat} {c c' : Client} (h : Quiet c c') : Pings cfg t c c' := by
  obtain ⟨⟨new, hl, hn⟩, h1, h2, h3⟩ := h
  refine ⟨new, hl, h1, h2, fun u hu => ?_, .inl ⟨h3, fun u hu => ?_⟩⟩
  · have := hn _ hu; simp [Effect.aboutPing] at this
  · have := hn _ hu; simp [Effect.aboutPing] at this

theorem Pings.refl {cfg : Config} {t : Nat} (c : Client) : Pings cfg t c c := (Quiet.refl c).pings

theorem Pings.ctl {cfg : Config} {t : Nat} {c c' : Client} (hl : c'.ops.log = c.ops.log)
    (h : SamePing c.ctl c'.ctl) : Pings cfg t c c' := (Quiet.ctl hl h).pings

theorem Pings.of {cfg : Config} {t : Nat} {c c' : Client} (new : List Effect) (hl : c'.ops.log = c.ops.log ++ new)
    (hn : ∀ e ∈ new, e.aboutPing = false) (h : SamePing c.ctl c'.ctl) : Pings cfg t c c' := (Quiet.of new hl hn h).pings

theorem complete_quiet (c : Client) (op : Op) (e : Error) (a : Option Received) :
    Quiet c (c.complete op e a) :=
  .of [_] rfl (by simp [Effect.aboutPing]) (onComplete_ping ..)

theorem takeNext_pings {cfg : Config} {env : Env} {t : Nat} (q : List Op) (c : Client) :
    Pings cfg t c (c.takeNext cfg env q).1 := by
  induction q generalizing c with
  | nil => exact .refl _
  | cons op rest ih =>
    rw [Client.takeNext]
    split
    · exact .refl _
    · simp only
      split
      · exact .ctl rfl (.refl _)
      · rename_i e _
        have h1 : Pings cfg t c ({ c with ops := { c.ops with queued := rest } } : Client) := .ctl rfl (.refl _)
        have h2 := h1.trans (complete_quiet _ op e none).pings
        split
        · exact h2
        · exact h2.trans (ih _)

theorem setCurrent_pings {cfg : Config} {t : Nat} {c : Client} {op : Op} {s : OpState} {ok : Bool}
    (h : c.ops.setCurrent op = .ok (s, ok)) : Pings cfg t c ⟨s, c.ctl⟩ := by
  rcases setCurrent_cases h with ⟨_, p, n, enc, rfl, _⟩ | ⟨_, op', n, enc, rfl, _⟩
  · exact .of [_] rfl (by simp [Effect.aboutPing]) (.refl _)
  · exact .of [_] rfl (by simp [Effect.aboutPing]) (.refl _)

theorem load_pings {cfg : Config} {env : Env} {t : Nat} {c c' : Client} {e : Option Error}
    (h : c.load cfg env = .ok (c', e)) : Pings cfg t c c' := by
  unfold Client.load at h
  split at h
  · cases h; exact .refl _
  · have h1 := takeNext_pings (cfg := cfg) (env := env) (t := t) c.ops.queued c
    rcases hx : c.takeNext cfg env c.ops.queued with ⟨c2, r⟩
    rw [hx] at h h1
    cases r with
    | nothing => cases h; exact h1
    | failed => cases h; exact h1
    | next op =>
      simp only at h
      split at h
      · cases h
      · rename_i s ok hs
        cases h
        exact h1.trans (setCurrent_pings hs)

theorem onPingreqSend_pings (k : Control) (cfg : Config) (t : Nat) :
    (k.onPingreqSend cfg t).pingTimeout = pingDeadline cfg.pingTimeoutMs k.settings.serverKeepAlive t := by
  unfold Control.onPingreqSend
  generalize pingDeadline cfg.pingTimeoutMs k.settings.serverKeepAlive t = d
  rfl

theorem onPingreqSend_same (k : Control) (cfg : Config) (t : Nat) :
    (k.onPingreqSend cfg t).settings = k.settings ∧ (k.onPingreqSend cfg t).nextPing = k.nextPing := by
  unfold Control.onPingreqSend
  generalize pingDeadline cfg.pingTimeoutMs k.settings.serverKeepAlive t = d
  exact ⟨rfl, rfl⟩

theorem finish_log {cfg : Config} {s s' : OpState} {op : Op} {now : Nat} (h : s.finish cfg op now = .ok s') :
    s'.log = s.log ++ [.encoded op.uid op.packet] := by
  rcases (finish_cases h).2 with ⟨_, _, h⟩ | ⟨_, h⟩ <;> rw [h] <;> rfl

theorem finish_pings {cfg : Config} {c c' : Client} {op : Op} {now t : Nat} (h : c.finish cfg op now t = .ok c') :
    Pings cfg t c c' := by
  unfold Client.finish at h
  split at h
  · cases h
  · rename_i s hs
    have hlog := finish_log hs
    by_cases hp : op.packet = .pingreq
    · rw [if_pos hp] at h
      have h1 := onPingreqSend_pings c.ctl cfg t
      have h2 := onPingreqSend_same c.ctl cfg t
      generalize c.ctl.onPingreqSend cfg t = k at h h1 h2
      cases h
      exact ⟨_, hlog, h2.1, h2.2, by simp, .inr ⟨h1, op.uid, by rw [hp]; exact List.mem_singleton.2 rfl⟩⟩
    · rw [if_neg hp] at h
      cases h
      refine ⟨_, hlog, rfl, rfl, by simp, .inl ⟨rfl, fun u hu => hp ?_⟩⟩
      injection List.mem_singleton.1 hu with _ h2
      exact h2.symm

theorem serviceLoop_pings {cfg : Config} {env : Env} {fuel k : Nat} {buf : Buf} {c : Client}
    {r : Client × Buf × Option Error} (h : c.serviceLoop cfg env fuel k buf = .ok r) : Pings cfg env.pingNow c r.1 := by
  induction fuel generalizing c k buf with
  | zero => simp only [Client.serviceLoop] at h; cases h; exact .refl _
  | succ fuel ih =>
    rw [Client.serviceLoop] at h
    split at h
    · cases h
    · rename_i c1 e hl; cases h; exact load_pings hl
    · rename_i c1 hl
      have h1 := load_pings (t := env.pingNow) hl
      split at h
      · cases h; exact h1
      · rename_i op hop
        split at h
        · rename_i buf' enc _
          cases h
          exact h1.trans (.ctl rfl (.refl _))
        · rename_i buf' enc _
          have h2 : Pings cfg env.pingNow c ({ c1 with ops := { c1.ops with encoder := enc } } : Client) :=
            h1.trans (.ctl rfl (.refl _))
          split at h
          · cases h
          · rename_i c2 hf
            have h3 := h2.trans (finish_pings hf)
            split at h
            · exact h3.trans (ih h)
            · cases h; exact h3

theorem serviceOps_pings {cfg : Config} {env : Env} {c : Client} {r : Client × Option Error}
    (h : c.serviceOps cfg env = .ok r) : Pings cfg env.pingNow c r.1 := by
  unfold Client.serviceOps at h
  split at h
  · cases h; exact .refl _
  · split at h
    · cases h; exact .refl _
    · split at h
      · cases h
      · rename_i hl; cases h; exact serviceLoop_pings hl
      · rename_i hl
        have h1 := serviceLoop_pings hl
        split at h
        · cases h; exact h1
        · split at h
          · cases h; exact h1.trans (.ctl rfl (.refl _))
          · cases h; exact h1.trans (.of [_] rfl (by simp [Effect.aboutPing]) (.refl _))

theorem afterService_pings {cfg : Config} {t : Nat} (r : Client × Option Error) :
    Pings cfg t r.1 (Client.afterService r).1 := by
  unfold Client.afterService
  split
  · exact .refl _
  · exact .ctl rfl (shutdownChannel_ping ..)

theorem resolve_log {s s' : OpState} {u id : Nat} {e : Error} {a : Option Received}
    (h : s.resolve u id e a = .ok s') :
    ∃ x, s'.log = s.log ++ [x] ∧ x.aboutPing = false := by
  unfold OpState.resolve at h
  split at h
  · cases h
  · cases h; exact ⟨_, rfl, rfl⟩

theorem checkTimeouts_pings {now fuel : Nat} {s s' : OpState} (h : Client5.checkTimeouts now fuel s = .ok s') :
    ∃ new, s'.log = s.log ++ new ∧ ∀ e ∈ new, e.aboutPing = false := by
  induction fuel generalizing s with
  | zero => simp only [Client5.checkTimeouts] at h; cases h; exact ⟨[], by simp, by simp⟩
  | succ fuel ih =>
    rw [Client5.checkTimeouts] at h
    split at h
    · cases h; exact ⟨[], by simp, by simp⟩
    · split at h
      · cases h
      · split at h
        · cases h; exact ⟨[], by simp, by simp⟩
        · simp only at h
          split at h
          · cases h; exact ⟨[], by simp, by simp⟩
          · split at h
            · cases h
            · rename_i s1 hs1
              obtain ⟨new, h1, h2⟩ := ih h
              obtain ⟨e, h3, h4⟩ := resolve_log hs1
              refine ⟨e :: new, by rw [h1, h3]; simp, ?_⟩
              rintro e' he
              rcases List.mem_cons.1 he with rfl | he
              · exact h4
              · exact h2 _ he

theorem clientTimeouts_quiet {now : Nat} {c c' : Client} (h : c.checkTimeouts now = .ok c') :
    Quiet c c' := by
  unfold Client.checkTimeouts at h
  split at h
  · cases h
  · rename_i s hs
    cases h
    obtain ⟨new, h1, h2⟩ := checkTimeouts_pings hs
    exact .of new h1 h2 (.refl _)

theorem shutdownWith_quiet (c : Client) (e : Error) (v : DisconnectView) :
    Quiet c (c.shutdownWith e v) := by
  unfold Client.shutdownWith
  split
  · exact .ctl rfl (.refl _)
  · exact .ctl rfl (shutdownChannel_ping ..)

theorem shutdownClean_quiet (c : Client) (e : Error) (r : Nat) :
    Quiet c (c.shutdownClean e r) := by
  unfold Client.shutdownClean
  split
  · exact .ctl rfl (shutdownChannel_ping ..)
  · exact shutdownWith_quiet ..

theorem handleAck_quiet {c c' : Client} {id : Nat} {a : Received}
    (h : c.handleAck id a = .ok c') : Quiet c c' := by
  unfold Client.handleAck at h
  split at h
  · cases h; exact .refl _
  · split at h
    · cases h
    · rename_i op rest _
      simp only at h
      have h1 : Quiet c ({ c with ops := { c.ops with unacked := rest, table := c.ops.table.del id } } : Client) :=
        .ctl rfl (.refl _)
      split at h
      · cases h
      · cases h; exact h1.trans (complete_quiet ..)
      · have h2 := h1.trans (complete_quiet _ op .protocolError none)
        split at h
        · cases h; exact h2.trans (shutdownClean_quiet ..)
        · cases h; exact h2.trans (.ctl rfl (shutdownChannel_ping ..))

theorem publish_quiet (c : Client) (v : PublishView) (a : Bool) :
    Quiet c ⟨c.ops.onPublish v a, c.ctl⟩ := by
  have hacq : (c.ops.acquire v.packetId).1.log = c.ops.log := by unfold OpState.acquire; split <;> rfl
  unfold OpState.onPublish
  split
  · exact .of [_] rfl (by simp [Effect.aboutPing]) (.refl _)
  · cases a
    · simp only [Bool.false_eq_true, if_false]
      split
      · exact .of [_] rfl (by simp [Effect.aboutPing]) (.refl _)
      · exact .of [_, _] (by simp [OpState.queuePuback]; exact ⟨rfl, rfl⟩) (by simp [Effect.aboutPing]) (.refl _)
    · simp only [if_true]
      split
      · exact .of [_] (by simp [hacq]; rfl) (by simp [Effect.aboutPing]) (.refl _)
      · exact .of [_, _] (by simp [OpState.queuePuback, hacq]; exact ⟨rfl, rfl⟩) (by simp [Effect.aboutPing]) (.refl _)

/-! ## Events -/

/-- What an event after which the client is connected does to the keep-alive times. -/
inductive PingStep (cfg : Config) (c : Client) : Event → Client → Prop where
  | quiet {e : Event} {c' : Client} : c.ctl.state = .connected → (∀ a n, e ≠ .packet .pingresp a n) →
      (∀ env, e = .service env → c.ctl.desired ≠ .connected) → Quiet c c' → PingStep cfg c e c'
  | response {c' : Client} (a : Bool) (n : Nat) : c.ctl.state = .connected →
      c' = { c with ctl := { c.ctl with pingTimeout := 0 } } → PingStep cfg c (.packet .pingresp a n) c'
  | service {c' : Client} (env : Env) : c.ctl.state = .connected → c.ctl.desired = .connected →
      (c.ctl.pingTimeout = 0 ∨ env.now < c.ctl.pingTimeout) →
      Pings cfg env.pingNow (if env.now ≥ c.ctl.nextPing then c.queuePing env.queueNow else c) c' →
      PingStep cfg c (.service env) c'
  | connack {c' : Client} (v : ConnackView) (a : Bool) (now : Nat) : c.ctl.state = .mqttConnect →
      c'.ctl.pingTimeout = 0 → c'.ctl.nextPing = pingDue c'.ctl.settings.serverKeepAlive now →
      (∃ new, c'.ops.log = c.ops.log ++ new ∧ ∀ e ∈ new, e.aboutPing = false) →
      PingStep cfg c (.packet (.connack v) a now) c'

theorem up_shutdown {k : Control} {e : Error} (h : (k.shutdownChannel e).state = .connected) :
    k.state = .connected := by
  obtain ⟨_, h1 | h1⟩ := shutdownChannel_cases k e <;> rw [h1] at h
  · exact h
  · cases h

theorem up_completeAll {k : Control} {ops : List Op} {e : Error} (h : (k.onCompleteAll ops e).state = .connected) :
    k.state = .connected := by
  obtain ⟨_, h1 | h1⟩ := onCompleteAll_cases k ops e <;> rw [h1] at h
  · exact h
  · cases h

theorem up_shutdownWith {c : Client} {e : Error} {v : DisconnectView}
    (h : (c.shutdownWith e v).ctl.state = .connected) : c.ctl.state = .connected := by
  unfold Client.shutdownWith at h
  split at h
  · cases h
  · exact up_shutdown h

theorem up_shutdownClean {c : Client} {e : Error} {r : Nat}
    (h : (c.shutdownClean e r).ctl.state = .connected) : c.ctl.state = .connected := by
  unfold Client.shutdownClean at h
  split at h
  · exact up_shutdown h
  · exact up_shutdownWith h

theorem up_shutdownFinal (cfg : Config) (c : Client) (e : Error) : (c.shutdownFinal cfg e).ctl.state ≠ .connected := by
  unfold Client.shutdownFinal
  simp only
  split
  · simp
  · rw [toStopped_quiet]; simp

theorem toConnected_pings (cfg : Config) (c : Client) (now : Nat) :
    (c.toConnected cfg now).ctl.pingTimeout = 0 ∧
    (c.toConnected cfg now).ctl.nextPing = pingDue c.ctl.settings.serverKeepAlive now ∧
    ∃ new, (c.toConnected cfg now).ops.log = c.ops.log ++ new ∧ ∀ e ∈ new, e.aboutPing = false := by
  refine ⟨?_, ?_, _, onConnection_log .., ?_⟩
  · unfold Client.toConnected Control.resetPing
    generalize (if c.ctl.settings.rejoinedSession = true then [] else lose cfg.offline c.ops.unacked) = lost
    generalize ({ c.ctl with state := .connected } : Control).onCompleteAll lost .offlinePolicy = k
    dsimp only
  · unfold Client.toConnected Control.resetPing
    generalize (if c.ctl.settings.rejoinedSession = true then [] else lose cfg.offline c.ops.unacked) = lost
    have h := (onCompleteAll_ping ({ c.ctl with state := .connected } : Control) lost .offlinePolicy).1
    dsimp only at h ⊢
    rw [h]
  · intro e he
    rcases List.mem_append.1 he with he | he
    · simp only [completions, List.mem_map] at he
      obtain ⟨_, _, rfl⟩ := he
      rfl
    · rw [List.mem_singleton.1 he]; rfl

theorem completeAll_quiet (s : OpState) (ops : List Op) (e : Error) :
    ∃ new, (s.completeAll ops e).log = s.log ++ new ∧ ∀ e ∈ new, e.aboutPing = false := by
  refine ⟨completions ops e, by rw [completeAll_eq], ?_⟩
  intro e he
  simp only [completions, List.mem_map] at he
  obtain ⟨_, _, rfl⟩ := he
  rfl

theorem handleAck_up {c c' : Client} {id : Nat} {a : Received} (h : c.handleAck id a = .ok c')
    (hs : c'.ctl.state = .connected) : c.ctl.state = .connected := by
  unfold Client.handleAck at h
  split at h
  · cases h; exact hs
  · split at h
    · cases h
    · rename_i op rest _
      simp only at h
      have key : ∀ (k : Control) (e : Error), (k.onComplete op.packet e).state = .connected →
          k.state = .connected := by
        intro k e h
        obtain ⟨_, h1 | h1⟩ := onComplete_cases k op.packet e <;> rw [h1] at h
        · exact h
        · cases h
      split at h
      · cases h
      · cases h; exact key _ _ hs
      · split at h
        · cases h; exact key _ _ (up_shutdownClean hs)
        · cases h; exact key _ _ (up_shutdown hs)

theorem serviceOps_up {cfg : Config} {env : Env} {c : Client} {r : Client × Option Error}
    (h : c.serviceOps cfg env = .ok r) (hs : (Client.afterService r).1.ctl.state = .connected) :
    c.ctl.state = .connected := by
  have h1 : r.1.ctl.state = .connected := by
    unfold Client.afterService at hs
    split at hs
    · exact hs
    · exact up_shutdown hs
  rcases serviceOps_state h with h2 | h2
  · exact h2 ▸ h1
  · rw [h2] at h1; cases h1

theorem service_pings {cfg : Config} {env : Env} {c c' : Client} (h : c.service cfg env = .ok c')
    (hs : c'.ctl.state = .connected) : PingStep cfg c (.service env) c' := by
  unfold Client.service at h
  split at h
  · split at h
    · cases h
      exfalso
      unfold Client.toConnecting at hs
      cases hk : env.kickOff <;> rw [hk] at hs <;> cases hs
    · cases h; rw [toTerminated_state] at hs; cases hs
    · rename_i h1 _ _; cases h; rw [h1] at hs; cases hs
  · rename_i h1
    unfold Client.serviceMqttConnect at h
    exfalso
    split at h
    · cases h; have := up_shutdown hs; rw [emitFinal_state, h1] at this; cases this
    · split at h
      · cases h; have := up_shutdown hs; rw [emitFinal_state, h1] at this; cases this
      · split at h
        · cases h
        · rename_i hr
          cases h
          have := serviceOps_up hr hs; rw [h1] at this; cases this
  · rename_i h1
    unfold Client.serviceConnected at h
    split at h
    · rename_i hd
      cases h
      refine .quiet h1 (by simp) (fun _ _ => hd) (.ctl rfl ((emitFinal_ping ..).trans (shutdownChannel_ping ..)))
    · rename_i hd
      split at h
      · cases h
        exfalso
        unfold Client.shutdownClean at hs
        rw [show newDisconnect { reasonCode := 141 } = some { reasonCode := 141 } from rfl] at hs
        unfold Client.shutdownWith at hs
        simp [h1] at hs
      · rename_i ht
        simp only at h
        split at h
        · cases h
        · rename_i c1 hc1
          split at h
          · cases h
          · rename_i r hr
            cases h
            refine .service env h1 (Decidable.not_not.1 hd) (by omega) ?_
            exact ((clientTimeouts_quiet hc1).pings.trans (serviceOps_pings hr)).trans (afterService_pings r)
  · rename_i h1
    exfalso
    unfold Client.serviceCleanDisconnect at h
    split at h
    · cases h
    · rename_i r hr
      have key := serviceOps_up hr
      rcases hx : Client.afterService r with ⟨c1, b⟩
      rw [hx] at h key
      cases b
      · cases h; have := key hs; rw [h1] at this; cases this
      · simp only at h
        have := key (by rw [← timeouts_state h]; exact hs)
        rw [h1] at this; cases this
  · rename_i h1
    exfalso
    split at h
    · cases h; rw [toStopped_quiet] at hs; cases hs
    · split at h
      · cases h
        unfold Client.toConnecting at hs
        cases hk : env.kickOff <;> rw [hk] at hs <;> cases hs
      · cases h; rw [h1] at hs; cases hs
  · rename_i h1 h2 h3 h4 h5
    cases h
    exact absurd hs h3

theorem onConnack_pings {cfg : Config} {c c' : Client} {v : ConnackView} {a : Bool} {now : Nat}
    (h : c.onConnack cfg v now = .ok c') (hm : c.ctl.state = .mqttConnect) (hs : c'.ctl.state = .connected) :
    PingStep cfg c (.packet (.connack v) a now) c' := by
  have key : ∀ {k k' : Control} {e e' : Error}, k.emitFinalConnack e = .ok k' → k.state = .mqttConnect →
      (k'.shutdownChannel e').state ≠ .connected := by
    intro k k' e e' h1 h2 h3
    have := up_shutdown h3
    unfold Control.emitFinalConnack at h1
    split at h1
    · cases h1
    · cases h1; rw [emitFinal_state, h2] at this; cases this
  unfold Client.onConnack at h
  split at h
  · split at h
    · cases h
    · rename_i hk; cases h; exact absurd hs (key hk hm)
  · simp only at h
    split at h
    · split at h
      · cases h
      · rename_i hk; cases h; exact absurd hs (key hk hm)
    · injection h with h
      obtain ⟨h1, h2, h3⟩ := toConnected_pings cfg
        { c with ctl := { c.ctl with settings := c.ctl.settings.applyConnack v } } now
      have h4 := (toConnected_ctl cfg { c with ctl := { c.ctl with settings := c.ctl.settings.applyConnack v } } now).1
      rw [h] at h1 h2 h3 h4
      exact .connack v a now hm h1 (by rw [h4]; exact h2) h3

theorem onPacketConnected_pings {c c' : Client} {p : Received} {a : Bool} (h : c.onPacketConnected p a = .ok c')
    (hs : c'.ctl.state = .connected) (hp : p ≠ .pingresp) : c.ctl.state = .connected ∧ Quiet c c' := by
  unfold Client.onPacketConnected at h
  cases p with
  | pingresp => exact absurd rfl hp
  | disconnect v =>
    simp only at h
    split at h
    · cases h
    · rename_i k hk
      cases h
      unfold Control.emitFinalDisconnect at hk
      split at hk
      · cases hk
      · cases hk
        have := up_shutdown hs
        rw [emitFinal_state] at this
        exact ⟨this, .ctl rfl ((emitFinal_ping ..).trans (shutdownChannel_ping ..))⟩
  | suback v => exact ⟨handleAck_up h hs, handleAck_quiet h⟩
  | unsuback v => exact ⟨handleAck_up h hs, handleAck_quiet h⟩
  | publish v => cases h; exact ⟨hs, publish_quiet ..⟩
  | puback v =>
    have h1 : (c.onPuback v.packetId).handleAck v.packetId (.puback v) = .ok c' := h
    have h2 : (c.onPuback v.packetId).ctl.state = .connected := handleAck_up h1 hs
    refine ⟨h2, Quiet.trans ?_ (handleAck_quiet h1)⟩
    exact .of [_] rfl (by simp [Effect.aboutPing]) (.refl _)
  | connack v => cases h; exact ⟨hs, .refl _⟩

theorem step_pings {cfg : Config} {c c' : Client} {e : Event} (h : step cfg c e = .ok c')
    (hs : c'.ctl.state = .connected) : PingStep cfg c e c' := by
  cases e with
  | submit p t x =>
    injection h with h
    subst h
    have hc : (c.submit cfg p t x).ctl = c.ctl := by 
      unfold Client.submit; split
      · rfl
      · split <;> rfl
    refine .quiet (hc ▸ hs) (by simp) (by simp) ?_
    unfold Client.submit
    split
    · exact .of [_, _] rfl (by simp [Effect.aboutPing]) (.refl _)
    · split
      · exact .of [_, _] rfl (by simp [Effect.aboutPing]) (.refl _)
      · exact .of [_] rfl (by simp [Effect.aboutPing]) (.refl _)
  | setDesired d v =>
    injection h with h
    subst h
    unfold Client.setDesired at hs ⊢
    split
    · rename_i hd
      rw [if_pos hd] at hs
      exact .quiet hs (by simp) (by simp) (.refl _)
    · rename_i hd
      rw [if_neg hd] at hs
      simp only at hs ⊢
      split
      · rename_i v
        simp only at hs
        split
        · rename_i hd
          rw [if_pos hd] at hs
          have h1 := up_shutdownWith hs
          exact .quiet h1 (by simp) (by simp)
            (Quiet.trans (.ctl rfl ⟨rfl, rfl, rfl⟩) (shutdownWith_quiet ..))
        · rename_i hd
          rw [if_neg hd] at hs
          exact .quiet hs (by simp) (by simp) (.ctl rfl ⟨rfl, rfl, rfl⟩)
      · exact .quiet (show c.ctl.state = _ from hs) (by simp) (by simp) (.ctl rfl ⟨rfl, rfl, rfl⟩)
  | service env => exact service_pings h hs
  | setup err now =>
    exfalso
    change c.setup cfg err now = .ok c' at h
    unfold Client.setup at h
    split at h
    · cases h; exact up_shutdownFinal _ _ _ hs
    · split at h
      · cases h
      · split at h
        · cases h; cases hs
        · unfold Client.toMqttConnect at h
          split at h
          · cases h
          · split at h
            · cases h
            · simp only at h
              split at h
              · cases h; have := up_shutdown hs; cases this
              · split at h
                · cases h; have := up_shutdown hs; cases this
                · cases h; cases hs
  | shutdown e => injection h with h; subst h; exact absurd hs (up_shutdownFinal _ _ _)
  | writeComplete e =>
    injection h with h
    subst h
    have h1 := up_completeAll hs
    have h2 : c.ctl.state = .connected := by
      split at h1
      · exact up_shutdown h1
      · exact h1
    refine .quiet h2 (by simp) (by simp) ?_
    refine ⟨completeAll_quiet .., SamePing.trans ?_ (onCompleteAll_ping ..)⟩
    split
    · exact shutdownChannel_ping ..
    · exact .refl _
  | packet p a now =>
    change c.onPacket cfg p a now = .ok c' at h
    unfold Client.onPacket at h
    split at h
    · rename_i hm
      split at h
      · exact onConnack_pings h hm hs
      · cases h; have := up_shutdownClean hs; rw [hm] at this; cases this
    · rename_i hm
      by_cases hp : p = .pingresp
      · subst hp; cases h; exact .response a now hm rfl
      · exact .quiet hm (by intro a' n' hx; injection hx with hx _ _; exact hp hx) (by simp)
          (onPacketConnected_pings h hs hp).2
    · rename_i hm
      exfalso
      by_cases hp : p = .pingresp
      · subst hp; cases h; rw [hm] at hs; cases hs
      · have := (onPacketConnected_pings h hs hp).1; rw [hm] at this; cases this
    · rename_i h1 h2 h3; cases h; exact absurd hs h2
  | readFailed e =>
    injection h with h
    subst h
    unfold Client.readFailed at hs ⊢
    split
    · rename_i hc
      rw [if_pos hc] at hs
      exact .quiet hc.2 (by simp) (by simp) (shutdownClean_quiet ..)
    · rename_i hc
      rw [if_neg hc] at hs
      exact .quiet (up_shutdown hs) (by simp) (by simp) (.ctl rfl (shutdownChannel_ping ..))
  | invoke ctl =>
    injection h with h
    subst h
    refine .quiet hs (by simp) (by simp) ?_
    unfold OpState.invoke
    split
    · exact .of [_, _] (by simp [OpState.queuePuback]; exact ⟨rfl, rfl⟩) (by simp [Effect.aboutPing]) (.refl _)
    · exact .of [_] rfl (by simp [Effect.aboutPing]) (.refl _)
  | resetConnection =>
    injection h with h
    subst h
    unfold Client.resetConnection at hs ⊢
    split at hs
    · rename_i hm; have := up_shutdown hs; rw [hm] at this; cases this
    · rename_i hm
      exact .quiet (up_shutdown hs) (by simp) (by simp) (.ctl rfl (shutdownChannel_ping ..))
    · rename_i hm; rw [show _ = _ from hs] at hm; cases hm
    · rename_i h1 h2 h3; exact absurd hs h2

end Mqtt.Client5
