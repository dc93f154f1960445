import Verif.Lemmas.Client5Window
import Verif.Lemmas.Client5Run
import Verif.Lemmas.TopicAlias

/-!
When events of the MQTT 5 client end in an abort or in undefined behaviour.
-/
namespace Mqtt.Client5

open Mqtt.V5

/-! ### A publish being encoded has a token -/

theorem refused_one (log : List Effect) (e : Effect) : refused (log ++ [e]) = refusedOne (refused log) e := by
  simp [refused]

theorem refused_append {log new : List Effect} (h : ∀ e ∈ new, ∀ s, e ≠ .connected s) (hr : refused log = true) :
    refused (log ++ new) = true := by
  unfold refused at hr ⊢
  rw [List.foldl_append, hr]
  induction new with
  | nil => rfl
  | cons e new ih =>
    rw [List.foldl_cons]
    have : refusedOne true e = true := by
      have := h e (by simp)
      cases e <;> simp_all [refusedOne]
    rw [this]
    exact ih fun x hx => h x (by simp [hx])

/-- The operation being encoded has a token, unless an operation failed validation. -/
def FlowInv (c : Client) : Prop :=
  ∀ op, c.ops.current = some op → isQos1 op.packet = true → 0 < c.ops.tokens ∨ refused c.ops.log = true

theorem flow_new (cfg : Config) : FlowInv (Client.new cfg) := by intro op h; cases h

theorem FlowInv.same {c : Client} (h : FlowInv c) {s : OpState} {k : Control} {new : List Effect}
    (hc : s.current = c.ops.current) (hl : s.log = c.ops.log ++ new) (h1 : ∀ e ∈ new, ∀ x, e ≠ .connected x)
    (ht : c.ops.tokens ≤ s.tokens) : FlowInv ⟨s, k⟩ := by
  intro op ho hq
  simp only [hc] at ho ⊢
  rcases h op ho hq with h2 | h2
  · exact .inl (by omega)
  · rw [hl]; exact .inr (refused_append h1 h2)

theorem FlowInv.idle {s : OpState} {k : Control} (h : s.current = none) : FlowInv ⟨s, k⟩ := by
  intro op ho
  simp only [h] at ho
  cases ho

theorem flow_move {cfg : Config} {c c' : Client} (hi : HeldInv c) (hv : LiveInv c) (hw : WindowInv c) (h : FlowInv c)
    (m : Move cfg c c') : FlowInv c' := by
  cases m with
  | control k hk => exact h.same rfl (List.append_nil _).symm (by simp) (Nat.le_refl _)
  | accept p t hp hs hst => exact h.same rfl rfl (by simp) (Nat.le_refl _)
  | reject p e hp => exact h.same rfl rfl (by simp) (Nat.le_refl _)
  | push p hp hst => exact h.same rfl (List.append_nil _).symm (by simp) (Nat.le_refl _)
  | publish v a hst =>
    obtain ⟨s1, ctl, hs, hl, hx⟩ := onPublish_queue c.ops v a
    rcases hx with hx | hx
    · rw [hx]; exact h.same hs.current hl (by simp) (by rw [hs.tokens]; exact Nat.le_refl _)
    · rw [hx]
      exact h.same (new := [.delivered v ctl, .pubackQueued s1.nextUid v.packetId]) hs.current
        (by simp [OpState.queuePuback, hl]) (by simp) (by simp [OpState.queuePuback, hs.tokens])
  | invoke ctl hst =>
    rcases invoke_queue c.ops ctl with ⟨id, s1, _, hs, hl, _, _, _, hx⟩ | ⟨_, hs, hl, _⟩
    · rw [hx]
      exact h.same (new := [.invoked ctl (some id), .pubackQueued s1.nextUid id]) hs.current
        (by simp [OpState.queuePuback, hl]) (by simp) (by simp [OpState.queuePuback, hs.tokens])
    · exact h.same hs.current hl (by simp) (by rw [hs.tokens]; exact Nat.le_refl _)
  | token id hst =>
    intro op ho hq
    simp only [Client.onPuback] at ho ⊢
    cases hl : live c.ops.log with
    | false =>
      have := hv.cur hl op ho
      revert this hq
      cases op.packet <;> simp [isUser, isQos1]
    | true =>
      have hm := hw.maximum hst hl
      have hs := hw.small hl
      rcases h op ho hq with h2 | h2
      · left; omega
      · right; exact refused_append (by simp) h2
  | invalid op rest e hq he => exact h.same rfl rfl (by simp) (Nat.le_refl _)
  | start op rest s ok hq hc he hst hs hf =>
    rcases setCurrent_cases hs with ⟨_, p, n, enc, rfl, _⟩ | ⟨_, op', n, enc, rfl, hb, _⟩
    · exact .idle hc
    · intro o ho hqos
      simp only [Option.some.injEq] at ho ⊢
      subst ho
      have hqos : isQos1 op.packet = true := by
        rcases bind_cases hb with ⟨_, _, rfl⟩ | ⟨_, id, _, _, rfl⟩
        · exact hqos
        · rw [← hqos]; exact isQos1_congr (by simp)
      rcases hf hqos with h2 | h2
      · exact .inl h2
      · exact .inr (refused_append (by simp) h2)
  | encode op buf buf' enc r hc he => exact h.same rfl (List.append_nil _).symm (by simp) (Nat.le_refl _)
  | finish op now s hc hsteps hs =>
    obtain ⟨_, ⟨hr, hid, rfl⟩ | ⟨hr, rfl⟩⟩ := finish_cases hs
    · exact .idle rfl
    · exact .idle rfl
  | write data => exact h.same rfl rfl (by simp) (Nat.le_refl _)
  | pinged uid => exact h.same rfl rfl (by simp) (Nat.le_refl _)
  | unwrite => exact h.same rfl (List.append_nil _).symm (by simp) (Nat.le_refl _)
  | written e =>
    rw [completeAll_eq]
    exact h.same rfl rfl (by simp [completions]) (Nat.le_refl _)
  | ack id uid op rest e a ht hu => exact h.same rfl rfl (by simp) (Nat.le_refl _)
  | timeout op rest hu ht => exact h.same rfl rfl (by simp) (Nat.le_refl _)
  | forget uid => exact h.same rfl (List.append_nil _).symm (by simp) (Nat.le_refl _)
  | fresh hst => exact h.same rfl (List.append_nil _).symm (by simp) (Nat.le_refl _)
  | disconnection e st hst => exact .idle (onDisconnection_current ..)
  | connection settings now hst =>
    intro op ho hqos
    have ho : c.ops.current = some op := by
      have : (c.ops.onConnection cfg settings).current = some op := ho
      simpa using this
    have := hv.cur (hv.down (.inr hst)) op ho
    revert this hqos
    cases op.packet <;> simp [isUser, isQos1]
  | reset hst =>
    refine .idle ?_
    have := (hi.idle (by rcases hst with hst | hst <;> simp [hst, State.quiet])).1
    simpa using this
  | terminate hst hd =>
    refine .idle ?_
    have := (hi.idle (by simp [hst, State.quiet])).1
    simpa using this

/-! ### Lifecycle -/

theorem emitFinal_lifecycle (k : Control) (e : Error) : (k.emitFinal e).lifecycle = .none := by
  unfold Control.emitFinal
  split
  · assumption
  · rfl
  · rfl

theorem shutdownChannel_lifecycle (k : Control) (e : Error) : (k.shutdownChannel e).lifecycle = .none := by
  unfold Control.shutdownChannel
  generalize (if e = .success then .other 0 else e) = e
  have := emitFinal_lifecycle k e
  simp only
  split
  · exact this
  · split <;> exact this

structure LifeInv (c : Client) : Prop where
  before : (c.ctl.state = .connecting ∨ c.ctl.state = .mqttConnect) → c.ctl.lifecycle ≠ .connected
  after : c.ctl.state = .connected → c.ctl.lifecycle ≠ .connecting

theorem life_new (cfg : Config) : LifeInv (Client.new cfg) := by constructor <;> simp [Client.new]

theorem LifeInv.none {c : Client} (h : c.ctl.lifecycle = .none) : LifeInv c := by constructor <;> simp [h]

theorem life_move {cfg : Config} {c c' : Client} (h : LifeInv c) (m : Move cfg c c') : LifeInv c' := by
  cases m with
  | control k hk =>
    cases hk with
    | shutdown e => exact .none (shutdownChannel_lifecycle ..)
    | giveUp => exact .none (shutdownChannel_lifecycle ..)
    | emitShutdown e e' _ => exact .none (shutdownChannel_lifecycle ..)
    | emitClean e e' _ => exact .none (emitFinal_lifecycle ..)
    | misc _ h1 h2 h3 => exact ⟨by rw [h1, h3]; exact h.before, by rw [h1, h3]; exact h.after⟩
    | desired d => exact ⟨h.before, h.after⟩
    | connecting h1 h2 => constructor <;> simp
    | kickOff e h1 h2 => constructor <;> simp
    | refuse h1 h2 => constructor <;> simp
    | opened h1 h2 => exact ⟨fun _ => h.before (.inl h1), by simp⟩
    | settings s h1 => exact ⟨h.before, h.after⟩
    | clean e h1 => constructor <;> simp
  | disconnection e st hst => constructor <;> rcases hst with rfl | rfl <;> simp
  | connection settings now hst =>
    have h1 := (toConnected_ctl cfg { c with ctl := { c.ctl with settings := settings } } now).2
    constructor
    · rcases h1 with h1 | h1 <;> simp [h1]
    · intro _
      simp [Client.toConnected]
  | reset hst => constructor <;> simp [toStopped_quiet]
  | terminate hst hd => constructor <;> simp [toTerminated_state]
  | _ => exact ⟨h.before, h.after⟩

/-! ### Topic aliases -/

/-- The alias resolver agrees with some server. -/
def Agrees (cfg : Config) (enc : Encoder) : Prop :=
  ∀ r, enc.resolver = some r → ∃ s, TopicAlias.AliasInv cfg.outboundAliases r s

structure AliasInv (cfg : Config) (c : Client) : Prop where
  fits : AliasFits c.ctl.settings
  agrees : Agrees cfg c.ops.encoder

theorem alias_new (cfg : Config) : AliasInv cfg (Client.new cfg) := by
  constructor
  · simp [Client.new, AliasFits, Settings.init]
  · intro r h; cases h

theorem AliasInv.same {cfg : Config} {c : Client} (h : AliasInv cfg c) {s : OpState} {k : Control}
    (h1 : k.settings = c.ctl.settings) (h2 : s.encoder.resolver = c.ops.encoder.resolver) : AliasInv cfg ⟨s, k⟩ :=
  ⟨by simp only [h1]; exact h.fits, by unfold Agrees; simp only [h2]; exact h.agrees⟩

theorem topic_of_origin {log : List Effect} {u : Nat} {v : PublishView} (h : Origin log u (.publish v)) : v.topic ≠ [] := by
  obtain ⟨q, _, hs, hp⟩ := h rfl
  cases q with
  | publish w =>
    simp only [plainPacket, Outgoing.publish.injEq] at hp
    have ht := congrArg PublishView.topic hp
    simp only at ht
    rw [← ht]
    obtain ⟨x, hx⟩ := hs
    have := newPublish_same hx
    subst this
    unfold newPublish at hx
    intro h0
    have hf : validatePublish x = false := by
      unfold validatePublish
      simp only [h0, List.length_nil, if_true]
      repeat' split
      all_goals rfl
    rw [hf] at hx
    cases hx
  | _ => cases hp

theorem push_resolver (enc : Encoder) (steps : Option (List Step)) :
    (∃ e, enc.push steps = .ok e ∧ e.resolver = enc.resolver) ∨
    (∃ e, enc.push steps = .failed e ∧ e.resolver = enc.resolver) := by
  unfold Encoder.push
  split
  · exact .inr ⟨_, rfl, rfl⟩
  · simp only
    split
    · exact .inl ⟨_, rfl, rfl⟩
    · exact .inr ⟨_, rfl, rfl⟩

/-- Encoding a packet the user submitted does not abort and keeps the resolver in order. -/
theorem append_alias {cfg : Config} {enc : Encoder} (hr : Agrees cfg enc) {log : List Effect} {u : Nat} {p : Outgoing}
    (ho : Origin log u p) :
    (∃ e, enc.append p = .ok e ∧ Agrees cfg e) ∨ (∃ e, enc.append p = .failed e ∧ Agrees cfg e) := by
  have key : ∀ (enc : Encoder) (steps : Option (List Step)), Agrees cfg enc →
      (∃ e, enc.push steps = .ok e ∧ Agrees cfg e) ∨ (∃ e, enc.push steps = .failed e ∧ Agrees cfg e) := by
    intro enc steps h
    rcases push_resolver enc steps with ⟨e, h1, h2⟩ | ⟨e, h1, h2⟩
    · exact .inl ⟨e, h1, by unfold Agrees; rw [h2]; exact h⟩
    · exact .inr ⟨e, h1, by unfold Agrees; rw [h2]; exact h⟩
  cases p with
  | publish v =>
    simp only [Encoder.append]
    cases hres : enc.resolver with
    | none => exact key _ _ hr
    | some r =>
      obtain ⟨s, hs⟩ := hr r hres
      rcases TopicAlias.alias_step hs v.topic (topic_of_origin ho) v.topicAlias with
        ⟨_, h1, _⟩ | ⟨r', t', a', s', h1, _, h3, _⟩
      · simp only [h1]
        exact .inr ⟨enc, rfl, hr⟩
      · simp only [h1]
        refine key { enc with resolver := some r' } _ ?_
        intro x hx
        cases hx
        exact ⟨s', h3⟩
  | _ => simp only [Encoder.append]; exact key _ _ hr

theorem bind_encoder {s s' : OpState} {op op' : Op} (h : s.bind op = some (s', op')) : s'.encoder = s.encoder := by
  rcases bind_cases h with ⟨_, rfl, _⟩ | ⟨_, id, _, rfl, _⟩ <;> rfl

theorem Origin.congr {log : List Effect} {u : Nat} {p q : Outgoing} (h : Origin log u p) (hpq : plainPacket p = plainPacket q) :
    Origin log u q := by
  intro hu
  obtain ⟨x, h1, h2, h3⟩ := h (isUser_congr hpq ▸ hu)
  exact ⟨x, h1, h2, h3.trans hpq⟩

theorem setCurrent_alias {cfg : Config} {s : OpState} {op : Op} (hr : Agrees cfg s.encoder)
    {log : List Effect} (ho : Origin log op.uid op.packet) :
    ∃ s' ok, s.setCurrent op = .ok (s', ok) ∧ Agrees cfg s'.encoder := by
  unfold OpState.setCurrent
  cases hb : s.bind op with
  | none => exact ⟨_, _, rfl, hr⟩
  | some r =>
    obtain ⟨s1, op1⟩ := r
    have he := bind_encoder hb
    have ho1 : Origin log op.uid op1.packet := by
      rcases bind_cases hb with ⟨_, _, rfl⟩ | ⟨_, id, _, _, rfl⟩
      · exact ho
      · exact ho.congr (by simp)
    simp only
    rcases append_alias (enc := s1.encoder) (by rw [he]; exact hr) ho1 with ⟨e, h1, h2⟩ | ⟨e, h1, h2⟩
    · simp only [h1]; exact ⟨_, _, rfl, h2⟩
    · simp only [h1]; exact ⟨_, _, rfl, h2⟩

theorem alias_move {cfg : Config} {c c' : Client} (ho : OriginInv c) (h : AliasInv cfg c) (m : Move cfg c c') : AliasInv cfg c' := by
  cases m with
  | control k hk =>
    cases hk with
    | shutdown e => exact h.same (shutdownChannel_cases _ _).1 rfl
    | giveUp => exact h.same (shutdownChannel_cases _ _).1 rfl
    | emitShutdown e e' _ => exact h.same ((shutdownChannel_cases _ _).1.trans (by simp)) rfl
    | emitClean e e' _ => exact h.same (by simp) rfl
    | misc _ h1 h2 h3 => exact h.same h2 rfl
    | kickOff e h1 h2 => exact h.same (by simp) rfl
    | settings s h1 h2 => exact ⟨h2 h.fits, h.agrees⟩
    | _ => exact h.same rfl rfl
  | publish v a hst =>
    obtain ⟨s1, ctl, hs, hl, hx⟩ := onPublish_queue c.ops v a
    rcases hx with hx | hx
    · rw [hx]; exact h.same rfl (by rw [hs.encoder])
    · rw [hx]; exact h.same rfl (by simp [OpState.queuePuback, hs.encoder])
  | invoke ctl hst =>
    rcases invoke_queue c.ops ctl with ⟨id, s1, _, hs, hl, _, _, _, hx⟩ | ⟨_, hs, hl, _⟩
    · rw [hx]; exact h.same rfl (by simp [OpState.queuePuback, hs.encoder])
    · exact h.same rfl (by rw [hs.encoder])
  | start op rest s ok hq hc he hst hs hf =>
    obtain ⟨s', ok', h1, h2⟩ := setCurrent_alias (s := { c.ops with queued := rest }) h.agrees
      (ho op (by simp [OpState.held, hq]))
    rw [hs] at h1
    cases h1
    exact ⟨h.fits, h2⟩
  | encode op buf buf' enc r hc he =>
    refine h.same rfl ?_
    unfold Encoder.encodeToBuffer at he
    split at he <;> cases he <;> rfl
  | finish op now s hc hsteps hs =>
    obtain ⟨_, ⟨hr, hid, rfl⟩ | ⟨hr, rfl⟩⟩ := finish_cases hs <;> exact h.same rfl rfl
  | written e => rw [completeAll_eq]; exact h.same rfl rfl
  | disconnection e st hst =>
    refine h.same ?_ (by simp)
    simp only [Control.channelGone]
    rw [(onCompleteAll_cases _ _ _).1]
    simp
  | connection settings now hst hf =>
    refine ⟨?_, ?_⟩
    · rw [(toConnected_ctl cfg { c with ctl := { c.ctl with settings := settings } } now).1]
      exact hf h.fits
    · intro r hr
      have hr : (c.ops.onConnection cfg settings).encoder.resolver = some r := hr
      rw [onConnection_resolver] at hr
      cases hr
      refine ⟨.fresh settings.topicAliasMaximumToServer, TopicAlias.aliasInv_reset (s := .fresh 0) ?_ (hf h.fits)⟩
      cases cfg.outboundAliases with
      | manual => exact .manual rfl (by simp)
      | lru => exact .lruOff rfl
      | disabled => exact .disabled
  | reset hst =>
    refine h.same (s := c.toStopped.ops) (k := c.toStopped.ctl) ?_ (by simp [Client.toStopped])
    simp only [Client.toStopped, Control.emitStopped]
    rw [(onCompleteAll_cases _ _ _).1]
  | terminate hst hd =>
    refine h.same (s := c.toTerminated.ops) (k := c.toTerminated.ctl) ?_ (by simp [Client.toTerminated])
    simp only [Client.toTerminated]
    rw [(onCompleteAll_cases _ _ _).1]
  | _ => exact h.same rfl rfl

/-! ### Faults -/

/-- All that is needed. -/
structure SafeInv (cfg : Config) (c : Client) : Prop where
  inv : Inv c
  window : WindowInv c
  flow : FlowInv c
  life : LifeInv c
  origin : OriginInv c
  alias : AliasInv cfg c

theorem safe_move {cfg : Config} {c c' : Client} (h : SafeInv cfg c) (m : Move cfg c c') : SafeInv cfg c' :=
  ⟨⟨held_move h.inv.held m, live_move h.inv.held h.inv.live m, track_move h.inv.held h.inv.live h.inv.track m⟩,
    window_move h.inv.live h.window m, flow_move h.inv.held h.inv.live h.window h.flow m, life_move h.life m,
    origin_move h.origin m, alias_move h.origin h.alias m⟩

theorem safe_moves {cfg : Config} {c c' : Client} (h : SafeInv cfg c) (m : Moves cfg c c') : SafeInv cfg c' :=
  moves_inv (P := SafeInv cfg) (fun _ _ h m => safe_move h m) m h

theorem reachable_safe {cfg : Config} {c : Client} (h : Reachable cfg c) : SafeInv cfg c :=
  reachable_inv (P := SafeInv cfg)
    ⟨⟨held_new cfg, live_new cfg, track_new cfg⟩, window_new cfg, flow_new cfg, life_new cfg, origin_new cfg,
      alias_new cfg⟩
    (fun _ _ h m => safe_move h m) h

/-- An operation in a list fails the check against the negotiated settings. -/
def Refuses (cfg : Config) (c : Client) (q : List Op) : Prop := ∃ op ∈ q, c.invalid cfg op.packet ≠ none

theorem takeNext_queue {cfg : Config} {env : Env} {q : List Op} {c c' : Client} {t : Taken}
    (hq : c.ops.queued = q) (h : c.takeNext cfg env q = (c', t)) (ht : t ≠ .failed) :
    c'.ctl = c.ctl ∧ c'.ops.tokens = c.ops.tokens ∧ (∀ o ∈ c'.ops.queued, o ∈ q) ∧
    (∀ op, t = .next op → op ∈ q) ∧ (¬Refuses cfg c q → c'.ops.log = c.ops.log) ∧
    live c'.ops.log = live c.ops.log := by
  induction q generalizing c with
  | nil =>
    simp only [Client.takeNext] at h
    cases h
    simp [hq]
  | cons op rest ih =>
    rw [Client.takeNext] at h
    split at h
    · cases h; simp [hq]
    · simp only at h
      split at h
      · cases h
        refine ⟨rfl, rfl, fun o ho => List.mem_cons_of_mem _ ho, ?_, fun _ => rfl, rfl⟩
        intro o ho; cases ho; simp
      · rename_i e hinv
        split at h
        · cases h; exact absurd rfl ht
        · rename_i hd
          have hctl : c.ctl.onComplete op.packet e = c.ctl := by simp [Control.onComplete, hd]
          obtain ⟨h1, h2, h3, h4, _, h6⟩ := ih rfl h
          simp only [Client.complete, hctl] at h1
          refine ⟨h1, h2, fun o ho => List.mem_cons_of_mem _ (h3 o ho), fun o ho => List.mem_cons_of_mem _ (h4 o ho), ?_,
            h6.trans (live_one _ _ rfl)⟩
          intro hno
          refine absurd ⟨op, by simp, ?_⟩ hno
          have hinv : c.invalid cfg op.packet = some e := hinv
          rw [hinv]
          simp

/-- Loading goes well; afterwards the queue is smaller. -/
theorem load_queue {cfg : Config} {env : Env} {c : Client} (hs : SafeInv cfg c)
    (hcan : c.ops.current = none → CanTake c.ctl.state c.ops.queued ∧ Flows c c.ops.queued) :
    ∃ c' e, c.load cfg env = .ok (c', e) ∧ (e = none → c'.ctl = c.ctl ∧ (∀ o ∈ c'.ops.queued, o ∈ c.ops.queued) ∧
      (¬Refuses cfg c c.ops.queued → refused c.ops.log = false → refused c'.ops.log = false) ∧
      live c'.ops.log = live c.ops.log) := by
  unfold Client.load
  split
  · exact ⟨_, _, rfl, fun _ => ⟨rfl, fun _ h => h, fun _ h => h, rfl⟩⟩
  · rename_i hc
    have hc : c.ops.current = none := by simpa using hc
    rcases hx : c.takeNext cfg env c.ops.queued with ⟨c2, t⟩
    have hm := takeNext_moves (g := .any) rfl hc (hcan hc).1 (hcan hc).2 hx
    cases t with
    | nothing =>
      obtain ⟨h1, _, h3, _, h5, hlive⟩ := takeNext_queue rfl hx (by simp)
      exact ⟨_, _, rfl, fun _ => ⟨h1, h3, fun hno hr => by rw [h5 hno]; exact hr, hlive⟩⟩
    | failed => exact ⟨_, _, rfl, fun h => by cases h⟩
    | next op =>
      obtain ⟨h1, _, h3, h4, h5, hlive⟩ := takeNext_queue rfl hx (by simp)
      rcases hm with hm | ⟨o, r, c1, h6, hm, h7, _, _, h8, _⟩
      · exact absurd rfl (hm.1 op)
      · cases h6
        have hs1 := safe_moves hs hm
        subst h8
        obtain ⟨s', ok, h9, _⟩ := setCurrent_alias (s := { c1.ops with queued := r }) hs1.alias.agrees
          (hs1.origin op (by simp [OpState.held, h7]))
        simp only [h9]
        refine ⟨_, _, rfl, fun he => ?_⟩
        have hq : s'.queued = r := by
          rcases setCurrent_cases h9 with ⟨_, p, n, enc, rfl, _⟩ | ⟨_, op', n, enc, rfl, hb, _⟩ <;> rfl
        have hl : refused s'.log = refused c1.ops.log := by
          rcases setCurrent_cases h9 with ⟨_, p, n, enc, rfl, _⟩ | ⟨_, op', n, enc, rfl, hb, _⟩ <;>
            simp [refused, refusedOne]
        have hl' : live s'.log = live c1.ops.log := by
          rcases setCurrent_cases h9 with ⟨_, p, n, enc, rfl, _⟩ | ⟨_, op', n, enc, rfl, hb, _⟩ <;> exact live_one _ _ rfl
        refine ⟨h1, by rw [hq]; exact h3, fun hno hr => ?_, hl'.trans hlive⟩
        simp only at h5
        rw [hl, h5 hno]
        exact hr

/-- The service loop only fails for want of tokens, after an operation has failed the check against the
negotiated settings. -/
theorem serviceLoop_fault {cfg : Config} {env : Env} {fuel k : Nat} {buf : Buf} {c : Client} {f : Fault}
    (hs : SafeInv cfg c) (hcan : c.ops.current = none → CanTake c.ctl.state c.ops.queued ∧ Flows c c.ops.queued)
    (h : c.serviceLoop cfg env fuel k buf = .error f) :
    f = .abort ∧ live c.ops.log = true ∧ (refused c.ops.log = true ∨ Refuses cfg c c.ops.queued) := by
  induction fuel generalizing c k buf with
  | zero => simp only [Client.serviceLoop] at h; cases h
  | succ fuel ih =>
    rw [Client.serviceLoop] at h
    obtain ⟨c1, e, hl, hq⟩ := load_queue (env := env) hs hcan
    have m1 := load_moves (g := .any) hcan hl
    have hs1 := safe_moves hs m1
    rw [hl] at h
    cases e with
    | some e => cases h
    | none =>
      obtain ⟨q1, q2, q3, q4⟩ := hq rfl
      simp only at h
      -- what happens later is due to what is there now
      have back : ∀ c2 : Client, c2.ctl.state = c.ctl.state → c2.ctl.settings = c.ctl.settings →
          (∀ o ∈ c2.ops.queued, o ∈ c.ops.queued) →
          refused c2.ops.log = refused c1.ops.log →
          refused c2.ops.log = true ∨ Refuses cfg c2 c2.ops.queued →
          refused c.ops.log = true ∨ Refuses cfg c c.ops.queued := by
        intro c2 b1 b2 b3 b4 b5
        by_cases hno : Refuses cfg c c.ops.queued
        · exact .inr hno
        · cases hr : refused c.ops.log with
          | true => exact .inl rfl
          | false =>
            have := q3 hno hr
            rcases b5 with b5 | ⟨op, b5, b6⟩
            · rw [b4, this] at b5; cases b5
            · refine absurd ⟨op, b3 op b5, ?_⟩ hno
              have : c.invalid cfg op.packet = c2.invalid cfg op.packet := by
                unfold Client.invalid Control.settingsValid
                rw [b1, b2]
              rw [this]; exact b6
      split at h
      · cases h
      · rename_i op hcur
        split at h
        · cases h
        · rename_i buf2 enc henc
          have m2 := m1.snoc (.encode c1 op buf buf2 enc _ hcur henc)
          have hs2 := safe_moves hs m2
          split at h
          · rename_i f' hf
            cases h
            unfold Client.finish at hf
            split at hf
            · rename_i f'' hf''
              cases hf
              unfold OpState.finish at hf''
              split at hf''
              · rename_i ht
                cases hf''
                simp only [Bool.and_eq_true, beq_iff_eq] at ht
                refine ⟨rfl, ?_, back c1 (by rw [q1]) (by rw [q1]) q2 rfl ?_⟩
                · rw [← q4]
                  cases hl : live c1.ops.log with
                  | true => rfl
                  | false =>
                    have h1 := hs1.inv.live.cur hl op hcur
                    have h2 := ht.1
                    revert h1 h2
                    cases op.packet <;> simp [isUser, isQos1]
                rcases hs1.flow op hcur ht.1 with h2 | h2
                · omega
                · exact .inl h2
              · simp only at hf''
                split at hf''
                · rename_i hr
                  split at hf''
                  · rename_i hid
                    have := hs1.inv.live.curId op hcur hr
                    omega
                  · cases hf''
                · cases hf''
            · cases hf
          · rename_i c2 hf
            unfold Client.finish at hf
            split at hf
            · cases hf
            · rename_i s hsf
              have m3 := m2.snoc (.finish _ op (env.loopNow k) s hcur (encodeToBuffer_finished henc) hsf trivial)
              have m4 : Moves cfg c c2 := by
                cases hf
                simp only
                split
                · exact m3.append (.k (.sent ..))
                · exact m3
              have hc2 : c2.ctl.state = c.ctl.state ∧ c2.ctl.settings = c.ctl.settings ∧
                  c2.ops.queued = c1.ops.queued ∧ refused c2.ops.log = refused c1.ops.log ∧
                  live c2.ops.log = live c1.ops.log := by
                have hs3 : s.queued = c1.ops.queued ∧ refused s.log = refused c1.ops.log ∧
                    live s.log = live c1.ops.log := by
                  obtain ⟨_, ⟨_, _, rfl⟩ | ⟨_, rfl⟩⟩ := finish_cases hsf <;>
                    exact ⟨rfl, by simp [OpState.finishAck, OpState.finishWrite, refused, refusedOne], live_one _ _ rfl⟩
                cases hf
                simp only
                split
                · simp [q1, hs3]
                · simp [q1, hs3]
              obtain ⟨b1, b2, b3, b4, b5⟩ := hc2
              split at h
              · rename_i hserve
                obtain ⟨hf', hl', hc'⟩ := ih (safe_moves hs m4) (serviceTime_take hserve) h
                exact ⟨hf', by rw [← q4, ← b5]; exact hl', back c2 b1 b2 (by rw [b3]; exact q2) b4 hc'⟩
              · cases h

theorem serviceOps_fault {cfg : Config} {env : Env} {c : Client} {f : Fault} (hs : SafeInv cfg c)
    (h : c.serviceOps cfg env = .error f) :
    f = .abort ∧ live c.ops.log = true ∧ (refused c.ops.log = true ∨ Refuses cfg c c.ops.queued) := by
  unfold Client.serviceOps at h
  split at h
  · cases h
  · rename_i hst
    have hst := serviceTime_take (by simpa using hst)
    split at h
    · cases h
    · split at h
      · rename_i f' hl
        cases h
        exact serviceLoop_fault hs hst hl
      · cases h
      · split at h
        · cases h
        · split at h <;> cases h

theorem mem_takeUid {ops : List Op} {op : Op} (h : op ∈ ops) : ∃ r, takeUid op.uid ops = some r := by
  induction ops with
  | nil => cases h
  | cons o ops ih =>
    rw [takeUid]
    split
    · exact ⟨_, rfl⟩
    · rename_i hne
      rcases List.mem_cons.1 h with rfl | h
      · exact absurd rfl hne
      · obtain ⟨r, hr⟩ := ih h
        exact ⟨_, by rw [hr]; rfl⟩

theorem checkTimeouts_fault {cfg : Config} {now fuel : Nat} {c : Client} {f : Fault} (hs : SafeInv cfg c) :
    Client5.checkTimeouts now fuel c.ops ≠ .error f := by
  intro h
  induction fuel generalizing c with
  | zero => simp only [Client5.checkTimeouts] at h; cases h
  | succ fuel ih =>
    rw [Client5.checkTimeouts] at h
    split at h
    · cases h
    · rename_i uid huid
      obtain ⟨op0, ho0, hu0⟩ := hs.inv.live.tmo uid (earliest_mem huid)
      obtain ⟨r, hr⟩ := mem_takeUid ho0
      rw [hu0] at hr
      split at h
      · rename_i hn
        rw [takeUid_find, hr] at hn
        cases hn
      · rename_i op hop
        rw [takeUid_find, hr] at hop
        have hop : r.1 = op := by simpa using hop
        split at h
        · cases h
        · simp only at h
          split at h
          · cases h
          · rename_i u hu
            simp only [OpState.resolve, hr] at h
            have hu' : op.uid = uid := by rw [← hop]; exact takeUid_uid (rest := r.2) hr
            have m2 : Move cfg c _ :=
              .timeout c op r.2 (by rw [hu', ← hop]; exact hr) (by rw [hu]; rfl) ⟨now, trivial, by omega⟩
                (by rw [hu']; exact earliest_mem huid)
            rw [← hop] at m2 h hu'
            subst hu'
            refine ih (safe_move hs m2) ?_
            simp only
            rw [← timeout_eq]
            exact h

theorem checkTimeouts_same {now fuel : Nat} {s s' : OpState} (h : Client5.checkTimeouts now fuel s = .ok s') :
    s'.queued = s.queued ∧ refused s'.log = refused s.log := by
  induction fuel generalizing s with
  | zero => simp only [Client5.checkTimeouts] at h; cases h; exact ⟨rfl, rfl⟩
  | succ fuel ih =>
    rw [Client5.checkTimeouts] at h
    split at h
    · cases h; exact ⟨rfl, rfl⟩
    · split at h
      · cases h
      · split at h
        · cases h; exact ⟨rfl, rfl⟩
        · simp only at h
          split at h
          · cases h; exact ⟨rfl, rfl⟩
          · split at h
            · cases h
            · rename_i s1 hs1
              obtain ⟨h1, h2⟩ := ih h
              rw [h1, h2]
              unfold OpState.resolve at hs1
              split at hs1
              · cases hs1
              · cases hs1
                exact ⟨rfl, by simp [OpState.complete, refused_one, refusedOne, Error.validation]⟩

theorem clientCheckTimeouts_same {now : Nat} {c c' : Client} (h : c.checkTimeouts now = .ok c') :
    c'.ops.queued = c.ops.queued ∧ refused c'.ops.log = refused c.ops.log ∧ c'.ctl = c.ctl := by
  unfold Client.checkTimeouts at h
  split at h
  · cases h
  · rename_i s hs
    cases h
    exact ⟨(checkTimeouts_same hs).1, (checkTimeouts_same hs).2, rfl⟩

theorem clientCheckTimeouts_fault {cfg : Config} {now : Nat} {c : Client} {f : Fault} (hs : SafeInv cfg c) :
    c.checkTimeouts now ≠ .error f := by
  intro h
  unfold Client.checkTimeouts at h
  split at h
  · rename_i f' hf; exact checkTimeouts_fault hs hf
  · cases h

/-- The acknowledgement is for an operation of another kind. -/
def Confused : Received → Outgoing → Prop
  | .suback _, p => ∀ v, p ≠ .subscribe v
  | .unsuback _, p => ∀ v, p ≠ .unsubscribe v
  | _, _ => False

theorem handleAck_fault {cfg : Config} {c : Client} {id : Nat} {ack : Received} {f : Fault} (hs : SafeInv cfg c)
    (h : c.handleAck id ack = .error f) :
    f = .ub ∧ ∃ op ∈ c.ops.unacked, packetId op.packet = id ∧ live c.ops.log = true ∧ Confused ack op.packet := by
  unfold Client.handleAck at h
  split at h
  · cases h
  · rename_i uid huid
    obtain ⟨op0, ho0, hu0, hid⟩ := hs.inv.live.tab id uid huid
    obtain ⟨r, hr⟩ := mem_takeUid ho0
    rw [hu0] at hr
    have hlive : live c.ops.log = true := by
      cases hl : live c.ops.log with
      | true => rfl
      | false =>
        rw [(hs.inv.live.bare hl).1] at huid
        cases huid
    have hop : r.1 = op0 := by
      have hn := List.nodup_iff_count.2 hs.inv.held.unackedOnce
      have h1 := takeUid_uid (rest := r.2) (op := r.1) hr
      obtain ⟨x, y, hx, _, _⟩ := takeUid_split (rest := r.2) (op := r.1) hr
      have hm : r.1 ∈ c.ops.unacked := by rw [hx]; simp
      exact unique_of_map hn _ hm _ ho0 (h1.trans hu0.symm)
    split at h
    · rename_i hn; rw [hr] at hn; cases hn
    · rename_i op rest ht
      rw [hr] at ht
      have ht := Option.some.inj ht
      have : op = op0 := by rw [← hop, ht]
      subst this
      simp only at h
      split at h
      · rename_i f' hf
        cases h
        refine ⟨?_, op, ho0, hid, hlive, ?_⟩
        · unfold countMatches at hf
          split at hf
          · split at hf <;> cases hf; rfl
          · split at hf <;> cases hf; rfl
          · cases hf
        · unfold countMatches at hf
          split at hf
          · split at hf
            · cases hf
            · rename_i hne; intro v hv; exact hne v hv
          · split at hf
            · cases hf
            · rename_i hne; intro v hv; exact hne v hv
          · cases hf
      · cases h
      · split at h <;> cases h

/-- What makes an event abort or run into undefined behaviour. -/
inductive Cause (cfg : Config) (c : Client) : Event → Fault → Prop where
  /-- Flow control is not asked again after an operation has failed the check against the negotiated
  settings (3361-3390, 3657). -/
  | flow (env : Env) : (c.ctl.state = .connected ∨ c.ctl.state = .cleanDisconnect) →
      (refused c.ops.log = true ∨ c.invalid cfg .pingreq ≠ none ∨ Refuses cfg c c.ops.queued) →
      Cause cfg c (.service env) .abort
  /-- A DISCONNECT arrives while the client disconnects cleanly from a connection never established (358). -/
  | disconnect (v : DisconnectView) (acquire : Bool) (now : Nat) :
      c.ctl.state = .cleanDisconnect → c.ctl.lifecycle = .connecting →
      Cause cfg c (.packet (.disconnect v) acquire now) .abort
  /-- A SUBACK or UNSUBACK arrives for an operation of another kind (3515-3535). -/
  | suback (v : SubackView) (acquire : Bool) (now : Nat) (u : Nat) (p : Outgoing) :
      (u, p) ∈ inFlight c.ops.log → packetId p = v.packetId → (∀ w, p ≠ .subscribe w) →
      Cause cfg c (.packet (.suback v) acquire now) .ub
  | unsuback (v : SubackView) (acquire : Bool) (now : Nat) (u : Nat) (p : Outgoing) :
      (u, p) ∈ inFlight c.ops.log → packetId p = v.packetId → (∀ w, p ≠ .unsubscribe w) →
      Cause cfg c (.packet (.unsuback v) acquire now) .ub

theorem mem_inFlight {c : Client} (h : Inv c) {op : Op} (ho : op ∈ c.ops.unacked) (hl : live c.ops.log = true) :
    (op.uid, op.packet) ∈ inFlight c.ops.log := by
  rw [inFlight, h.track.flying hl]
  exact List.mem_map.2 ⟨op, ho, rfl⟩

theorem onPacketConnected_fault {cfg : Config} {c : Client} {p : Received} {acquire : Bool} {now : Nat} {f : Fault}
    (hs : SafeInv cfg c) (hst : c.ctl.state = .connected ∨ c.ctl.state = .cleanDisconnect)
    (h : c.onPacketConnected p acquire = .error f) : Cause cfg c (.packet p acquire now) f := by
  cases p with
  | pingresp => cases h
  | publish v => cases h
  | connack v => cases h
  | disconnect v =>
    simp only [Client.onPacketConnected, Control.emitFinalDisconnect] at h
    split at h
    · rename_i f' hf
      cases h
      split at hf
      · rename_i hl
        cases hf
        rcases hst with hst | hst
        · exact absurd hl (hs.life.after hst)
        · exact .disconnect v acquire now hst hl
      · cases hf
    · cases h
  | suback v =>
    simp only [Client.onPacketConnected] at h
    obtain ⟨rfl, op, ho, hid, hl, hc⟩ := handleAck_fault hs h
    exact .suback v acquire now op.uid op.packet (mem_inFlight hs.inv ho hl) hid hc
  | unsuback v =>
    simp only [Client.onPacketConnected] at h
    obtain ⟨rfl, op, ho, hid, hl, hc⟩ := handleAck_fault hs h
    exact .unsuback v acquire now op.uid op.packet (mem_inFlight hs.inv ho hl) hid hc
  | puback v =>
    simp only [Client.onPacketConnected] at h
    obtain ⟨_, _, _, _, _, hc⟩ := handleAck_fault (safe_move hs (.token c v.packetId hst)) h
    exact hc.elim

theorem service_fault {cfg : Config} {c : Client} {env : Env} {f : Fault} (hs : SafeInv cfg c)
    (h : c.service cfg env = .error f) : Cause cfg c (.service env) f := by
  unfold Client.service at h
  split at h
  · split at h <;> cases h
  · rename_i hst
    unfold Client.serviceMqttConnect at h
    split at h
    · cases h
    · split at h
      · cases h
      · split at h
        · rename_i f' hf
          cases h
          obtain ⟨_, hl, _⟩ := serviceOps_fault hs hf
          rw [hs.inv.live.down (.inr hst)] at hl
          cases hl
        · cases h
  · rename_i hst
    unfold Client.serviceConnected at h
    split at h
    · cases h
    · split at h
      · cases h
      · simp only at h
        have hst' : c.ctl.state ≠ .terminated := by rw [hst]; simp
        have m1 : Moves cfg c (if env.now ≥ c.ctl.nextPing then c.queuePing env.queueNow else c) := by
          split
          · exact .cons (.push c .pingreq (.inl rfl) hst' (by simp [isConnect])) (.cons (.pinged _ c.ops.nextUid) (.k (.resetPing ..)))
          · exact .nil _
        have q1 : (∀ op ∈ (if env.now ≥ c.ctl.nextPing then c.queuePing env.queueNow else c).ops.queued,
            op ∈ c.ops.queued ∨ op.packet = .pingreq) ∧
            (if env.now ≥ c.ctl.nextPing then c.queuePing env.queueNow else c).ctl.state = c.ctl.state ∧
            (if env.now ≥ c.ctl.nextPing then c.queuePing env.queueNow else c).ctl.settings = c.ctl.settings ∧
            refused (if env.now ≥ c.ctl.nextPing then c.queuePing env.queueNow else c).ops.log = refused c.ops.log := by
          split
          · refine ⟨?_, by simp [Client.queuePing], by simp [Client.queuePing], by simp [Client.queuePing, OpState.pushFront, refused, refusedOne]⟩
            intro op ho
            simp only [Client.queuePing, OpState.pushFront, List.mem_cons] at ho
            rcases ho with rfl | ho
            · exact .inr rfl
            · exact .inl ho
          · exact ⟨fun _ h => .inl h, rfl, rfl, rfl⟩
        generalize (if env.now ≥ c.ctl.nextPing then c.queuePing env.queueNow else c) = c1 at h m1 q1
        have hs1 := safe_moves hs m1
        split at h
        · rename_i f' hf
          exact absurd hf (clientCheckTimeouts_fault hs1)
        · rename_i c2 hc2
          have m2 := clientCheckTimeouts_moves (g := .any) (cfg := cfg) hc2 trivial
          have hs2 := safe_moves hs1 m2
          split at h
          · rename_i f' hf
            cases h
            obtain ⟨rfl, _, hc⟩ := serviceOps_fault hs2 hf
            obtain ⟨t1, t2, t3⟩ := clientCheckTimeouts_same hc2
            refine .flow env (.inl hst) ?_
            rcases hc with hc | ⟨op, ho, hx⟩
            · left; rw [← q1.2.2.2, ← t2]; exact hc
            · right
              have hinv : c2.invalid cfg op.packet = c.invalid cfg op.packet := by
                unfold Client.invalid Control.settingsValid
                rw [t3, q1.2.1, q1.2.2.1]
              rw [hinv] at hx
              rw [t1] at ho
              rcases q1.1 op ho with ho | ho
              · exact .inr ⟨op, ho, hx⟩
              · left; rw [← ho]; exact hx
          · cases h
  · rename_i hst
    unfold Client.serviceCleanDisconnect at h
    split at h
    · rename_i f' hf
      cases h
      obtain ⟨rfl, _, hc⟩ := serviceOps_fault hs hf
      exact .flow env (.inr hst) (hc.imp id .inr)
    · rename_i r hr
      have hs1 := safe_moves hs ((serviceOps_moves hr fun _ => trivial).append (afterService_moves cfg r (serviceOps_settled hr (by simp [hst]))))
      split at h
      · cases h
      · rename_i c1 hc1
        rw [hc1] at hs1
        exact absurd h (clientCheckTimeouts_fault hs1)
  · split at h
    · cases h
    · split at h <;> cases h
  · cases h

/-- Every fault has one of the known causes. -/
theorem safe_fault {cfg : Config} {c : Client} {e : Event} {f : Fault} (hs : SafeInv cfg c) (he : Enabled c e)
    (h : step cfg c e = .error f) : Cause cfg c e f := by
  cases e with
  | submit p t x => cases h
  | setDesired d v => cases h
  | service env => exact service_fault hs h
  | setup err now =>
    have hst : c.ctl.state = .connecting := he
    simp only [step, Client.setup] at h
    split at h
    · cases h
    · rw [if_neg (by rw [hst]; simp)] at h
      split at h
      · cases h
      · unfold Client.toMqttConnect at h
        rw [if_neg (by simp [hst])] at h
        have hc := (hs.inv.held.idle (by simp [hst, State.quiet])).1
        rw [if_neg (by simp [hc])] at h
        simp only at h
        split at h
        · cases h
        · split at h <;> cases h
  | shutdown e => cases h
  | writeComplete e => cases h
  | packet p acquire now =>
    simp only [step, Client.onPacket] at h
    split at h
    · rename_i hst
      split at h
      · rename_i v
        have hl := hs.life.before (.inr hst)
        simp only [Client.onConnack, Control.emitFinalConnack] at h
        rw [if_neg hl, if_neg hl] at h
        split at h
        · cases h
        · split at h <;> cases h
      · cases h
    · rename_i hst; exact onPacketConnected_fault hs (.inl hst) h
    · rename_i hst; exact onPacketConnected_fault hs (.inr hst) h
    · cases h
  | readFailed e => cases h
  | invoke ctl => cases h
  | resetConnection => cases h

theorem step_fault {cfg : Config} {c : Client} {e : Event} {f : Fault} (hr : Reachable cfg c) (he : Enabled c e)
    (h : step cfg c e = .error f) : Cause cfg c e f := safe_fault (reachable_safe hr) he h

end Mqtt.Client5
