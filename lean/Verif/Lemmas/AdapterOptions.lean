import Verif.Spec.AdapterOptions
import Mathlib.Data.List.Induction

/-!
What holds in every state of an adapter.
-/
namespace Mqtt.AdapterOptions
open Mqtt Mqtt.V5

theorem connect_eq (platform : Bytes) {m : Option Metrics.Metrics} (hm : m.all Metrics.validMetrics = true) (v : ConnectView) :
    Metrics.connect platform m v =
      if validateConnect v = true then
        match nameWith platform m v.username with
        | some u => .ok { v with username := u }
        | none => .crash
      else .refused := by
  unfold Metrics.connect nameWith
  cases hv : validateConnect v
  · simp
  · cases m with
    | none =>
      cases hu : v.username with
      | none => simp
      | some s => cases s <;> simp [Metrics.append]
    | some m =>
      have hm : Metrics.validMetrics m = true := by simpa using hm
      by_cases hl : List.length (Metrics.parseUsername (v.username.getD [])).fst +
          Metrics.buildSize 1 0 (Metrics.newParams platform m (Metrics.parseUsername (v.username.getD [])).snd) > 65535
      · simp [Metrics.append, hm, hl]
      · simp [Metrics.append, hm, hl]

theorem foldl_snoc {α β} (f : β → α → β) (b : β) (l : List α) (x : α) : (l ++ [x]).foldl f b = f (l.foldl f b) x := by simp

theorem seen_snoc (id : Bytes) (log : List Entry) (e : Entry) : seen id (log ++ [e]) = (seen id log).next e := foldl_snoc ..

theorem lastConnect_snoc (l : List Call) (x : Call) :
    lastConnect (l ++ [x]) = match x with | .connect o => some o | _ => lastConnect l := foldl_snoc ..
theorem lastWill_snoc (l : List Call) (x : Call) :
    lastWill (l ++ [x]) = match x with | .will w => some w | _ => lastWill l := foldl_snoc ..
theorem lastLogin_snoc (l : List Call) (x : Call) :
    lastLogin (l ++ [x]) = match x with | .login u p => some (u, p) | _ => lastLogin l := foldl_snoc ..
theorem lastReconnect_snoc (l : List Call) (x : Call) :
    lastReconnect (l ++ [x]) = match x with | .reconnect lo hi => some (lo, hi) | _ => lastReconnect l := foldl_snoc ..
theorem metrics_snoc (m : Option Metrics.Metrics) (l : List Call) (x : Call) :
    metrics m (l ++ [x]) = match x with | .metrics m => m | _ => metrics m l := foldl_snoc ..

theorem metricsAtLogin_fst (m : Option Metrics.Metrics) (l : List Call) (b : Option Metrics.Metrics) :
    (l.foldl (fun r x => match x with | .metrics m => (m, r.2) | .login _ _ => (r.1, r.1) | _ => r) (m, b)).1 = metrics m l := by
  induction l generalizing m b with
  | nil => rfl
  | cons x l ih => cases x <;> simp only [List.foldl_cons, metrics] <;> exact ih _ _

theorem metricsAtLogin_snoc (m : Option Metrics.Metrics) (l : List Call) (x : Call) :
    metricsAtLogin m (l ++ [x]) = match x with | .login _ _ => metrics m l | _ => metricsAtLogin m l := by
  unfold metricsAtLogin
  rw [foldl_snoc]
  cases x <;> simp only
  exact metricsAtLogin_fst m l none

theorem given_length {u : Option Bytes} {n : Nat} (h : (u.getD []).length ≤ n) : ∀ s, given u = some s → s.length ≤ n := by
  intro s hs
  unfold given at hs
  split at hs
  · subst hs; exact h
  · simp at hs

theorem given_text {u : Option Bytes} (h : validUtf8Text (u.getD []) = true) : ∀ s, given u = some s → validUtf8Text s = true := by
  intro s hs
  unfold given at hs
  split at hs
  · subst hs; exact h
  · simp at hs

theorem given_getD (u : Option Bytes) : (given u).getD [] = u.getD [] := by
  unfold given
  split
  · rfl
  · rename_i h
    have : (u.getD []) = [] := List.length_eq_zero_iff.1 (by omega)
    simp [this]

theorem nameWith_given (platform : Bytes) (m : Option Metrics.Metrics) (u : Option Bytes) :
    nameWith platform m (given u) = nameWith platform m u := by
  unfold nameWith; rw [given_getD]

theorem given_password (p : Option Bytes) : given p = if p = some [] then none else p := by
  cases p with
  | none => rfl
  | some s => cases s <;> simp [given]

theorem willValid {w : Will} (h : (Call.will w).ok = true) : validatePublish w.publish = true := by
  simp only [Call.ok, Bool.and_eq_true, decide_eq_true_eq] at h
  obtain ⟨h1, h2⟩ := h
  have h3 := h2
  unfold isValidTopic isValidTopicAux at h3
  have h4 : w.topic.length ≠ 0 := by intro e; simp [e] at h3
  have h5 : validUtf8Text w.topic = true := by
    cases hx : validUtf8Text w.topic
    · rw [if_neg h4, hx] at h3; simp at h3
    · rfl
  have h1' : ¬ w.qos > 2 := by omega
  simp [validatePublish, Will.publish, h1', h2, h4, h5, validateUserProperties]

/-- The stored CONNECT options stay acceptable. -/
theorem validView {v : ConnectView} (h : validateConnect v = true) {id : Bytes} (hid : id.length ≤ 65535)
    (hid2 : validUtf8Text id = true) {w : Option PublishView}
    (hw : w = v.will ∨ ∃ x, w = some x ∧ validatePublish x = true ∧ x.payload.length ≤ 65535) {u p : Option Bytes}
    (hu : ∀ s, u = some s → s.length ≤ 65535 ∧ validUtf8Text s = true) (hp : ∀ s, p = some s → s.length ≤ 65535)
    (ka : Nat) (se ta : Option Nat) (cs : Bool) :
    validateConnect
      { v with
        clientId := id
        will := w
        username := u
        password := p
        keepAlive := ka
        sessionExpiry := se
        cleanStart := cs
        topicAliasMaximum := ta } = true := by
  have hu1 : u.any (fun s => s.length > 65535) = false := by
    cases u with | none => rfl | some s => simpa using (hu s rfl).1
  have hu2 : u.any (fun s => !validUtf8Text s) = false := by
    cases u with | none => rfl | some s => simpa using (hu s rfl).2
  have hp1 : p.any (fun s => s.length > 65535) = false := by
    cases p with | none => rfl | some s => simpa using hp s rfl
  have hid1 : ¬ id.length > 65535 := by omega
  unfold validateConnect at h ⊢
  simp only [hu1, hu2, hp1, hid1, hid2] at h ⊢
  rcases hw with rfl | ⟨x, rfl, hx, hx2⟩
  · grind
  · have : ¬ x.payload.length > 65535 := by omega
    simp only [Option.any_some, hx, this]
    simp_all

/-- The will in the stored CONNECT options. -/
def storedWill (g : Config) (done : List Call) : Option PublishView :=
  match lastWill done with
  | some w => some w.publish
  | none => g.connect.will

structure Inv (platform : Bytes) (g : Config) (c : Conn) (s : Seen) (ok : Prop) : Prop where
  queue : s.waiting = c.queue
  clientId : s.clientId = c.clientId
  allowed : ∀ x ∈ s.waiting ++ s.done, x.ok = true
  dest : c.config.dest = wantedDest g s.done
  metrics : c.config.metrics = metrics g.metrics s.done
  valid : c.config.metrics.all Metrics.validMetrics = true
  aliases : c.config.inboundAliases = g.inboundAliases
  delays : lastReconnect s.done = none ∧ c.config.minDelayMs = g.minDelayMs ∧ c.config.maxDelayMs = g.maxDelayMs ∨
    ∃ lo hi, lastReconnect s.done = some (lo, hi) ∧ c.config.minDelayMs = min lo hi ∧ c.config.maxDelayMs = max lo hi
  options : ∀ o, lastConnect s.done = some o → c.config.session = (if o.cleanSession then .clean else .rejoinAlways) ∧
    c.config.pingTimeoutMs = o.pingTimeoutMs ∧ c.config.ackTimeoutSeconds = ackSeconds o.operationTimeoutMs ∧
    c.config.connect.keepAlive = o.keepAlive ∧ c.config.connect.sessionExpiry = if o.cleanSession then none else some 604800
  view : c.config.connect =
    { g.connect with
      keepAlive := c.config.connect.keepAlive
      sessionExpiry := c.config.connect.sessionExpiry
      will := storedWill g s.done
      username := c.config.connect.username
      password := c.config.connect.password }
  login : ok → Good s.done → c.config.connect.password = askedPassword g s.done ∧
    ((lastLogin s.done = none ∧ c.config.connect.username = g.connect.username) ∨
      ∃ u p, lastLogin s.done = some (u, p) ∧
        nameWith platform (metricsAtLogin g.metrics s.done) u = some c.config.connect.username)

theorem lastWill_mem {l : List Call} {w : Will} (h : lastWill l = some w) : Call.will w ∈ l := by
  induction l using List.reverseRecOn with
  | nil => simp [lastWill] at h
  | append_singleton l x ih =>
    rw [lastWill_snoc] at h
    cases x <;> simp_all

theorem lastLogin_mem {l : List Call} {u p : Option Bytes} (h : lastLogin l = some (u, p)) : Call.login u p ∈ l := by
  induction l using List.reverseRecOn with
  | nil => simp [lastLogin] at h
  | append_singleton l x ih =>
    rw [lastLogin_snoc] at h
    cases x <;> simp_all

theorem good_snoc {l : List Call} {x : Call} (h : Good (l ++ [x])) : Good l := fun y hy => h y (by simp [hy])

theorem good_last {l : List Call} {x : Call} (h : Good (l ++ [x])) : Good [x] := by
  intro y hy
  exact h y (by simp at hy; simp [hy])

theorem wantedDest_snoc (g : Config) (l : List Call) (x : Call) :
    wantedDest g (l ++ [x]) = match x with | .connect o => ⟨o.host, o.port, o.socket, o.tls⟩ | _ => wantedDest g l := by
  unfold wantedDest
  rw [lastConnect_snoc]
  cases x <;> rfl

theorem storedWill_snoc (g : Config) (l : List Call) (x : Call) :
    storedWill g (l ++ [x]) = match x with | .will w => some w.publish | _ => storedWill g l := by
  unfold storedWill
  rw [lastWill_snoc]
  cases x <;> rfl

theorem askedPassword_snoc (g : Config) (l : List Call) (x : Call) :
    askedPassword g (l ++ [x]) = match x with | .login _ p => if p = some [] then none else p | _ => askedPassword g l := by
  unfold askedPassword
  rw [lastLogin_snoc]
  cases x <;> rfl

/-- A call waits. -/
theorem Inv.called {platform : Bytes} {g : Config} {c : Conn} {s : Seen} {ok : Prop} (h : Inv platform g c s ok) {x : Call}
    (hx : x.ok = true) : Inv platform g { c with queue := c.queue ++ [x] } (s.next (.called x)) ok where
  queue := by simp [Seen.next, h.queue]
  clientId := h.clientId
  allowed := by
    intro y hy
    simp only [Seen.next, List.mem_append, List.mem_singleton] at hy
    rcases hy with (hy | rfl) | hy
    · exact h.allowed y (by simp [hy])
    · exact hx
    · exact h.allowed y (by simp [hy])
  dest := h.dest
  metrics := h.metrics
  valid := h.valid
  aliases := h.aliases
  delays := h.delays
  options := h.options
  view := h.view
  login := h.login

/-- Nothing changes but states. -/
theorem Inv.same {platform : Bytes} {g : Config} {c c' : Conn} {s : Seen} {ok ok' : Prop} (h : Inv platform g c s ok)
    (hok : ok' → ok) (h1 : c'.config = c.config) (h2 : c'.clientId = c.clientId) (h3 : c'.queue = c.queue) :
    Inv platform g c' s ok' := by
  constructor <;> try simp only [h1, h2, h3]
  · exact h.queue
  · exact h.clientId
  · exact h.allowed
  · exact h.dest
  · exact h.metrics
  · exact h.valid
  · exact h.aliases
  · exact h.delays
  · exact h.options
  · exact h.view
  · exact fun a => h.login (hok a)

theorem resetConnection_config (c : Conn) : c.resetConnection.config = c.config := by
  unfold Conn.resetConnection; cases c.phase <;> rfl
theorem resetConnection_clientId (c : Conn) : c.resetConnection.clientId = c.clientId := by
  unfold Conn.resetConnection; cases c.phase <;> rfl
theorem resetConnection_queue (c : Conn) : c.resetConnection.queue = c.queue := by
  unfold Conn.resetConnection; cases c.phase <;> rfl

theorem seen_append (id : Bytes) (a b : List Entry) : seen id (a ++ b) = b.foldl Seen.next (seen id a) := by
  unfold seen; rw [List.foldl_append]

/-- What `set_login` makes of the stored options. -/
theorem setLogin_eq (platform : Bytes) (g : Config) (hm : g.metrics.all Metrics.validMetrics = true) (u p : Option Bytes) :
    g.setLogin platform u p =
      if validateConnect { g.connect with username := given u, password := given p } = true then
        (nameWith platform g.metrics u).map fun n => { g with connect := { g.connect with username := n, password := given p } }
      else some g := by
  unfold Config.setLogin
  simp only [connect_eq platform hm, nameWith_given]
  generalize validateConnect _ = b
  cases b
  · rfl
  · cases nameWith platform g.metrics u <;> rfl

theorem loginValid {platform : Bytes} {g : Config} {c : Conn} {s : Seen} {ok : Prop} (h : Inv platform g c s ok)
    (hg : validateConnect g.connect = true) (hgood : Good s.done) {u p : Option Bytes} (hl : GoodLogin u p) :
    validateConnect { c.config.connect with username := given u, password := given p } = true := by
  rw [h.view]
  have hid : g.connect.clientId.length ≤ 65535 := by
    refine Nat.le_of_not_lt fun hx => ?_
    unfold validateConnect at hg
    rw [if_pos hx] at hg
    cases hg
  have hid2 : validUtf8Text g.connect.clientId = true := by
    cases hx : validUtf8Text g.connect.clientId
    · simp only [validateConnect, hx, Bool.not_false, if_true] at hg
      split at hg <;> cases hg
    · rfl
  refine validView hg hid hid2 ?_ (fun s hs => ⟨given_length hl.1 s hs, given_text hl.2.1 s hs⟩) (given_length hl.2.2)
    c.config.connect.keepAlive c.config.connect.sessionExpiry g.connect.topicAliasMaximum g.connect.cleanStart
  unfold storedWill
  cases hw : lastWill s.done with
  | none => exact .inl rfl
  | some w =>
    have hm := lastWill_mem hw
    exact .inr ⟨_, rfl, willValid (h.allowed _ (by simp [hm])), hgood _ hm⟩

theorem Inv.run {platform : Bytes} {g : Config} {c : Conn} {s : Seen} (h : Inv platform g c s True)
    (hg : validateConnect g.connect = true) :
    Inv platform g (c.run platform).1 ((c.run platform).2.foldl Seen.next s) (Entry.crash ∉ (c.run platform).2) := by
  unfold Conn.run
  cases hq : c.queue with
  | nil => exact h.same (fun _ => trivial) rfl rfl rfl
  | cons x rest =>
    have hw : s.waiting = x :: rest := by rw [h.queue, hq]
    have hall : ∀ y ∈ rest ++ (s.done ++ [x]), y.ok = true := by
      intro y hy
      apply h.allowed
      simp only [List.mem_append, List.mem_singleton] at hy
      simp only [hw, List.mem_append, List.mem_cons]
      grind
    have hxok : x.ok = true := hall x (by simp)
    cases x with
    | connect o =>
      simp only
      cases hi : c.idle
      · simp only [Bool.not_false, if_true, List.foldl_cons, List.foldl_nil, Seen.next, hw, List.drop_one, List.tail_cons]
        refine ⟨rfl, h.clientId, ?_, h.dest, h.metrics, h.valid, h.aliases, h.delays, h.options, h.view, fun _ => h.login trivial⟩
        intro y hy
        apply h.allowed
        simp only [List.mem_append] at hy
        simp only [hw, List.mem_append, List.mem_cons]
        grind
      · simp only [Bool.not_true, Bool.false_eq_true, if_false, List.foldl_cons, List.foldl_nil, Seen.next, hw]
        constructor <;> try simp only [resetConnection_config, resetConnection_clientId, resetConnection_queue, Config.onConnect]
        · exact hall
        · simp [wantedDest_snoc]
        · simp [metrics_snoc, h.metrics]
        · exact h.valid
        · exact h.aliases
        · simpa [lastReconnect_snoc] using h.delays
        · simp only [lastConnect_snoc]
          rintro o' ⟨⟩
          simp
        · simp only [storedWill_snoc]
          rw [h.view]
        · intro _ hgood
          have := h.login trivial (good_snoc hgood)
          simpa [askedPassword_snoc, lastLogin_snoc, metricsAtLogin_snoc] using this
    | will w =>
      simp only [List.foldl_cons, List.foldl_nil, Seen.next, hw]
      refine ⟨rfl, h.clientId, hall, ?_, ?_, h.valid, h.aliases, ?_, ?_, ?_, ?_⟩
      · simpa [wantedDest_snoc, Config.setWill] using h.dest
      · simpa [metrics_snoc, Config.setWill] using h.metrics
      · simpa [lastReconnect_snoc, Config.setWill] using h.delays
      · simpa [lastConnect_snoc, Config.setWill] using h.options
      · simp only [storedWill_snoc, Config.setWill]
        rw [h.view]
      · intro _ hgood
        have := h.login trivial (good_snoc hgood)
        simpa [askedPassword_snoc, lastLogin_snoc, metricsAtLogin_snoc, Config.setWill] using this
    | login u p =>
      simp only
      have hset := setLogin_eq platform c.config h.valid u p
      have hkeep : Inv platform g { c with queue := rest }
          { waiting := rest, done := s.done ++ [.login u p], clientId := s.clientId } False := by
        refine ⟨rfl, h.clientId, hall, ?_, ?_, h.valid, h.aliases, ?_, ?_, ?_, fun hf => hf.elim⟩
        · simpa [wantedDest_snoc] using h.dest
        · simpa [metrics_snoc] using h.metrics
        · simpa [lastReconnect_snoc] using h.delays
        · simpa [lastConnect_snoc] using h.options
        · simp only [storedWill_snoc]
          exact h.view
      by_cases hv : validateConnect { c.config.connect with username := given u, password := given p } = true
      · rw [if_pos hv] at hset
        cases hn : nameWith platform c.config.metrics u with
        | none =>
          rw [hn] at hset
          simp only [hset, Option.map_none, List.foldl_cons, List.foldl_nil, Seen.next, hw]
          exact hkeep.same (fun hf => by simp at hf) rfl rfl rfl
        | some n =>
          rw [hn] at hset
          simp only [hset, Option.map_some, List.foldl_cons, List.foldl_nil, Seen.next, hw]
          refine ⟨rfl, h.clientId, hall, hkeep.dest, hkeep.metrics, h.valid, h.aliases, hkeep.delays, hkeep.options, ?_, ?_⟩
          · simp only [storedWill_snoc]
            rw [h.view]
          · intro _ _
            refine ⟨by simp [askedPassword_snoc, given_password], .inr ⟨u, p, by simp [lastLogin_snoc], ?_⟩⟩
            simp only [metricsAtLogin_snoc]
            rw [← h.metrics, hn]
      · rw [if_neg hv] at hset
        simp only [hset, List.foldl_cons, List.foldl_nil, Seen.next, hw]
        refine ⟨rfl, h.clientId, hall, hkeep.dest, hkeep.metrics, h.valid, h.aliases, hkeep.delays, hkeep.options, hkeep.view, ?_⟩
        intro _ hgood
        exact absurd (loginValid h hg (good_snoc hgood) (good_last hgood (.login u p) (by simp))) hv
    | metrics m =>
      simp only [List.foldl_cons, List.foldl_nil, Seen.next, hw]
      refine ⟨rfl, h.clientId, hall, ?_, ?_, ?_, h.aliases, ?_, ?_, ?_, ?_⟩
      · simpa [wantedDest_snoc] using h.dest
      · simp [metrics_snoc]
      · exact hxok
      · simpa [lastReconnect_snoc] using h.delays
      · simpa [lastConnect_snoc] using h.options
      · simp only [storedWill_snoc]
        exact h.view
      · intro _ hgood
        have := h.login trivial (good_snoc hgood)
        simpa [askedPassword_snoc, lastLogin_snoc, metricsAtLogin_snoc] using this
    | reconnect lo hi =>
      simp only [List.foldl_cons, List.foldl_nil, Seen.next, hw]
      refine ⟨rfl, h.clientId, hall, ?_, ?_, h.valid, h.aliases, ?_, ?_, ?_, ?_⟩
      · simpa [wantedDest_snoc] using h.dest
      · simpa [metrics_snoc] using h.metrics
      · exact .inr ⟨lo, hi, by simp [lastReconnect_snoc], rfl, rfl⟩
      · simpa [lastConnect_snoc] using h.options
      · simp only [storedWill_snoc]
        exact h.view
      · intro _ hgood
        have := h.login trivial (good_snoc hgood)
        simpa [askedPassword_snoc, lastLogin_snoc, metricsAtLogin_snoc] using this

theorem Inv.step {platform : Bytes} {g : Config} {c : Conn} {s : Seen} (h : Inv platform g c s True)
    (hg : validateConnect g.connect = true) (e : Event) :
    Inv platform g (step platform c e).1 ((step platform c e).2.foldl Seen.next s) (Entry.crash ∉ (step platform c e).2) := by
  cases e with
  | call x =>
    simp only [AdapterOptions.step, Conn.call]
    cases hx : x.ok
    · exact h.same (fun _ => trivial) rfl rfl rfl
    · simp only [Bool.not_true, Bool.false_eq_true, if_false]
      cases x with
      | connect o =>
        simp only
        split
        · exact h.same (fun _ => trivial) rfl rfl rfl
        · exact (h.called hx).same (fun _ => trivial) rfl rfl rfl
      | _ => exact (h.called hx).same (fun _ => trivial) rfl rfl rfl
  | run => exact h.run hg
  | dial ok => exact h.same (fun _ => trivial) rfl rfl rfl
  | setup =>
    simp only [AdapterOptions.step, Conn.setup]
    split
    · exact h.same (fun _ => trivial) rfl rfl rfl
    · split <;> exact h.same (fun _ => trivial) rfl rfl rfl
  | connack a =>
    cases a with
    | none => exact h.same (fun _ => trivial) rfl rfl rfl
    | some id =>
      simp only [AdapterOptions.step, List.foldl_cons, List.foldl_nil, Seen.next]
      refine ⟨h.queue, ?_, h.allowed, h.dest, h.metrics, h.valid, h.aliases, h.delays, h.options, h.view, fun _ => h.login trivial⟩
      simp only [h.clientId, List.length_eq_zero_iff]
  | drop => exact h.same (fun _ => trivial) rfl rfl rfl
  | closed stop => cases stop <;> exact h.same (fun _ => trivial) rfl rfl rfl
  | adapter i => exact h.same (fun _ => trivial) rfl rfl rfl

theorem Inv.init (platform : Bytes) (g : Config) (id : Bytes) (d : Nat) (hm : g.metrics.all Metrics.validMetrics = true) :
    Inv platform g { config := g, clientId := id, delayMs := d } (seen id []) True where
  queue := rfl
  clientId := rfl
  allowed := by intro x hx; simp [seen] at hx
  dest := rfl
  metrics := rfl
  valid := hm
  aliases := rfl
  delays := .inl ⟨rfl, rfl, rfl⟩
  options := by intro o ho; simp [lastConnect, seen] at ho
  view := rfl
  login := fun _ _ => ⟨rfl, .inl ⟨rfl, rfl⟩⟩

theorem reachable_inv {platform : Bytes} {g : Config} {id : Bytes} {c : Conn} {log : List Entry}
    (hg : validateConnect g.connect = true) (hm : g.metrics.all Metrics.validMetrics = true)
    (h : Reachable platform g id c log) : Inv platform g c (seen id log) (Entry.crash ∉ log) := by
  induction h with
  | init d => exact (Inv.init platform g id d hm).same (fun _ => trivial) rfl rfl rfl
  | @step c log h e he hc ih =>
    rw [seen_append]
    exact ((ih.same (fun _ => hc) rfl rfl rfl).step hg e).same (fun hn hm => hn (by simp [hm])) rfl rfl rfl

/-! ### Sockets -/

structure DialInv (c : Conn) (f : Bool × List Call) (d : Option Dest) : Prop where
  waiting : f.2 = c.queue
  dial : f.1 = true → d = some c.config.dest
  ready : c.phase = .connecting → f.1 = !c.reset

def dialFrom (r : Option Dest) (e : Entry) : Option Dest := match e with | .dialed d => some d | _ => r

theorem setLogin_dest {platform : Bytes} {g g' : Config} {u p : Option Bytes} (h : g.setLogin platform u p = some g') :
    g'.dest = g.dest := by
  unfold Config.setLogin at h
  split at h <;> cases h <;> rfl

theorem DialInv.step (platform : Bytes) {c : Conn} {f : Bool × List Call} {d : Option Dest} (h : DialInv c f d) (e : Event)
    (he : Enabled c e) : DialInv (step platform c e).1 ((step platform c e).2.foldl freshFrom f)
      ((step platform c e).2.foldl dialFrom d) := by
  obtain ⟨f, ws⟩ := f
  obtain ⟨h1, h2, h3⟩ := h
  simp only at h1 h2 h3
  subst h1
  cases e with
  | call x =>
    simp only [AdapterOptions.step, Conn.call]
    cases x.ok
    · exact ⟨rfl, h2, h3⟩
    · simp only [Bool.not_true, Bool.false_eq_true, if_false]
      cases x with
      | connect o => simp only; split <;> exact ⟨rfl, h2, h3⟩
      | _ => exact ⟨rfl, h2, h3⟩
  | run =>
    simp only [AdapterOptions.step, Conn.run]
    cases hq : c.queue with
    | nil => simp only [List.foldl_nil]; exact ⟨hq.symm, h2, h3⟩
    | cons x rest =>
      cases x with
      | connect o =>
        simp only
        cases c.idle
        · exact ⟨rfl, h2, h3⟩
        · simp only [Bool.not_true, Bool.false_eq_true, if_false, List.foldl_cons, List.foldl_nil, freshFrom]
          refine ⟨by rw [resetConnection_queue], by simp, ?_⟩
          unfold Conn.resetConnection
          cases c.phase <;> simp
      | will w => exact ⟨rfl, h2, h3⟩
      | login u p =>
        simp only
        cases hs : c.config.setLogin platform u p with
        | none => exact ⟨rfl, h2, h3⟩
        | some g => exact ⟨rfl, fun hf => by rw [setLogin_dest hs]; exact h2 hf, h3⟩
      | metrics m => exact ⟨rfl, h2, h3⟩
      | reconnect lo hi => exact ⟨rfl, h2, h3⟩
  | dial ok => exact ⟨rfl, fun _ => rfl, fun _ => rfl⟩
  | setup =>
    simp only [AdapterOptions.step, Conn.setup]
    split
    · exact ⟨rfl, h2, by simp⟩
    · split
      · exact ⟨rfl, h2, by simp⟩
      · exact ⟨rfl, h2, by simp⟩
      · exact ⟨rfl, h2, h3⟩
  | connack a => cases a <;> exact ⟨rfl, h2, by simp [AdapterOptions.step]⟩
  | drop => exact ⟨rfl, h2, by simp [AdapterOptions.step]⟩
  | closed stop => cases stop <;> exact ⟨rfl, h2, by simp [AdapterOptions.step]⟩
  | adapter i => exact ⟨rfl, h2, h3⟩

theorem reachable_dial {platform : Bytes} {g : Config} {id : Bytes} {c : Conn} {log : List Entry}
    (h : Reachable platform g id c log) : DialInv c (log.foldl freshFrom (false, [])) (lastDial log) := by
  induction h with
  | init d => exact ⟨rfl, by simp, by simp⟩
  | @step c log h e he hc ih =>
    have := ih.step platform e he
    unfold lastDial at this ⊢
    rw [List.foldl_append, List.foldl_append]
    exact this

end Mqtt.AdapterOptions
