import Verif.Lemmas.Options311
import Verif.Props.C05

/-!
C82: the CONNECT and the socket of every attempt of an MQTT 3.1.1 connection are what `connect()` and the setters asked for.
-/
namespace Mqtt.Props
open Mqtt Mqtt.Spec Mqtt.Options311

/-- The calls that make the packet. -/
def connectCalls (w : Option Options311.Will) (user pass : Bytes) : List ConnectCall :=
  (match w with | none => [] | some w => [.will w.topic w.qos w.retain w.payload]) ++
  (if user = [] then [] else [.credentials user pass])

theorem connectCalls_count (w : Option Options311.Will) (user pass : Bytes) :
    (connectCalls w user pass).countP ConnectCall.isWill ≤ 1 := by
  unfold connectCalls
  by_cases hu : user = [] <;> cases w <;> simp [hu, ConnectCall.isWill, List.countP_cons]

theorem connectCalls_requested (o : Options) (w : Option Options311.Will) (user pass : Bytes) :
    requestedConnect o.clientId o.cleanSession (if o.keepAlive = 0 then 1200 else o.keepAlive) (connectCalls w user pass) =
      connectOf o w (if user = [] then none else some user) (if user = [] ∨ pass = [] then none else some pass) := by
  unfold connectCalls requestedConnect connectOf
  cases w <;> by_cases hu : user = [] <;> by_cases hp : pass = [] <;> simp [hu, hp]

theorem packet_calls (platform : Bytes) {c : Conn} {log : List Entry} (h : Inv c log) :
    c.packet platform = buildConnect c.clientId c.cleanSession c.keepAlive
      (connectCalls (lastWill log) (userName platform log) (((lastLogin log).bind (·.2)).getD [])) := by
  rw [← h.will, ← h.password]
  have key : ∀ (p : ConnectPacket) (user : Bytes), (if user.length > 0 then connectAddCredentials p user (c.password.getD []) else p) =
      (if user = [] then [] else [ConnectCall.credentials user (c.password.getD [])]).foldl (fun p c => match c with
        | .credentials u pw => connectAddCredentials p u pw
        | .will t q r m => connectAddWill p t q r m) p := by
    intro p user
    cases user <;> simp
  have hb : ∀ user, buildConnect c.clientId c.cleanSession c.keepAlive (connectCalls c.will user (c.password.getD [])) =
      (if user = [] then [] else [ConnectCall.credentials user (c.password.getD [])]).foldl (fun p c => match c with
        | .credentials u pw => connectAddCredentials p u pw
        | .will t q r m => connectAddWill p t q r m)
      (match c.will with
        | none => connectInit c.clientId c.cleanSession c.keepAlive
        | some w => connectAddWill (connectInit c.clientId c.cleanSession c.keepAlive) w.topic w.qos w.retain w.payload) := by
    intro user
    unfold buildConnect connectCalls
    cases c.will <;> rfl
  rw [hb, ← key]
  unfold Conn.packet userName
  rw [← h.metrics, ← h.username]
  cases hm : c.metrics with
  | none =>
    by_cases hc : (c.username.getD []).length > 0
    · cases c.will <;> simp [hc]
    · cases c.will <;> simp [hc]
  | some m => cases c.will <;> (simp only [Option.isSome_some, or_true, if_true]; rfl)

/-- What `s_mqtt_client_init` writes. -/
theorem setup_sends (platform : Bytes) {c : Conn} {log : List Entry} (h : Inv c log) (ha : Entry.abort ∉ log)
    (hs : c.state ≠ .disconnected) (hd : c.state ≠ .disconnecting) :
    ∃ o, lastOptions log = some o ∧
      ((((expected platform o log).body.length ≤ 16381 ∧
        ∃ bytes, IsFrame 1 0 (expected platform o log).body bytes ∧ (c.setup platform).2 = [.sent bytes])) ∨
       (¬ (expected platform o log).body.length ≤ 16381 ∧ (c.setup platform).2 = [.unsent])) := by
  cases ho : lastOptions log with
  | none => exact absurd (h.idle ho) hs
  | some o =>
    refine ⟨o, rfl, ?_⟩
    obtain ⟨_, _, j3, j4, j5, _⟩ := h.has ha o ho
    have hp := packet_calls platform h
    rw [j3, j4, j5] at hp
    have hcount := connectCalls_count (lastWill log) (userName platform log) (((lastLogin log).bind (·.2)).getD [])
    have hreq := connectCalls_requested o (lastWill log) (userName platform log) (((lastLogin log).bind (·.2)).getD [])
    change _ = expected platform o log at hreq
    have hqos : ∀ w, (expected platform o log).will = some w → w.qos ≤ 2 := by
      intro w hw
      simp only [expected, connectOf, Option.map_eq_some_iff] at hw
      obtain ⟨w', hw', rfl⟩ := hw
      exact (h.topic w' (by rw [h.will, hw'])).2
    simp only [Conn.setup, if_neg hd]
    rw [hp]
    generalize connectCalls (lastWill log) (userName platform log) (((lastLogin log).bind (·.2)).getD []) = calls at *
    have hin := connectEncode_inLimits o.clientId o.cleanSession (if o.keepAlive = 0 then 1200 else o.keepAlive) calls hcount
      (by rw [hreq]; exact hqos)
    have hfit := C54_connect_fits_partial o.clientId o.cleanSession (if o.keepAlive = 0 then 1200 else o.keepAlive) calls hcount
    simp only [hreq] at hin hfit
    generalize buildConnect o.clientId o.cleanSession (if o.keepAlive = 0 then 1200 else o.keepAlive) calls = p at *
    by_cases hl : (expected platform o log).body.length ≤ 16381
    · left
      refine ⟨hl, ?_⟩
      have hlim : Connect.inLimits (expected platform o log) := by
        have hb := hl
        rw [connect_body_length] at hb
        refine ⟨by omega, ?_, ?_, ?_, ?_⟩
        · intro w hw
          rw [hw] at hb
          exact ⟨by simp only at hb; omega, by simp only at hb; omega, hqos w hw⟩
        · intro u hu; rw [hu] at hb; simp only at hb; omega
        · intro u hu; rw [hu] at hb; simp only at hb; omega
        · simp only [expected, connectOf]
          by_cases hu : userName platform log = [] <;> simp [hu]
      obtain ⟨h1, h2⟩ := hfit hlim
      obtain ⟨b, hb⟩ := h1.2 hl
      rw [hb]
      exact ⟨b.data, h2 b hb, rfl⟩
    · right
      refine ⟨hl, ?_⟩
      cases hb : connectEncode (messageFor p.header) p with
      | ok b => exact absurd ((hfit (hin _ _ hb)).1.1 ⟨b, hb⟩) hl
      | error e => rfl

theorem append_split {α : Type} {a b pre post : List α} {x : α} (h : a ++ b = pre ++ x :: post) :
    (∃ post', a = pre ++ x :: post') ∨ ∃ m, pre = a ++ m ∧ b = m ++ x :: post := by
  rcases List.append_eq_append_iff.1 h with ⟨m, h1, h2⟩ | ⟨m, h1, h2⟩
  · exact Or.inr ⟨m, h1, h2⟩
  · cases m with
    | nil => exact Or.inr ⟨[], by simpa using h1.symm, by simpa using h2.symm⟩
    | cons y m =>
      simp only [List.cons_append, List.cons.injEq] at h2
      obtain ⟨rfl, _⟩ := h2
      exact Or.inl ⟨m, h1⟩

/-- C82: every CONNECT is the one that the last `connect()` and the last setters that succeeded before it ask for; `expected`
tells what becomes of empty user names and passwords and of metrics. -/
theorem C82_sent {platform : Bytes} {c : Conn} {log : List Entry} (h : Options311.Reachable platform c log) :
    ∀ pre bytes post, log = pre ++ .sent bytes :: post →
      ∃ o, lastOptions pre = some o ∧ IsFrame 1 0 (expected platform o pre).body bytes := by
  induction h with
  | init => intro pre bytes post he; simp at he
  | @step c log h e he ha ih =>
    intro pre bytes post hsplit
    rcases append_split hsplit with ⟨post', hin⟩ | ⟨m, rfl, hes⟩
    · exact ih pre bytes post' hin
    · have hi := reachable_inv h
      have hmem : Entry.sent bytes ∈ (Options311.step platform c e).2 := by rw [hes]; simp
      cases e with
      | setup =>
        by_cases hd : c.state = .disconnecting
        · simp [Options311.step, Conn.setup, hd] at hmem
        · have hs : c.state ≠ .disconnected := by rcases he with he | he | he <;> simp [he]
          obtain ⟨o, ho, h1 | h1⟩ := setup_sends platform hi ha hs hd
          · obtain ⟨_, b, hf, heq⟩ := h1
            simp only [Options311.step] at hes
            rw [heq] at hes
            cases m with
            | nil =>
              simp only [List.nil_append, List.cons.injEq, Entry.sent.injEq] at hes
              obtain ⟨rfl, _⟩ := hes
              exact ⟨o, by simpa using ho, by simpa using hf⟩
            | cons y m => simp at hes
          · simp only [Options311.step] at hmem
            rw [h1.2] at hmem
            simp at hmem
      | connect o begun =>
        simp only [Options311.step] at hmem
        rcases connect_cases c o begun with h1 | ⟨_, h1, _⟩ | ⟨_, h1⟩ | ⟨_, h1⟩ <;>
          rw [h1] at hmem <;> simp [Conn.dial] at hmem
      | setWill w => simp only [Options311.step, Conn.setWill] at hmem; (repeat' split at hmem) <;> simp at hmem
      | setLogin u p => simp only [Options311.step, Conn.setLogin] at hmem; (repeat' split at hmem) <;> simp at hmem
      | setMetrics m => simp only [Options311.step, Conn.setMetrics] at hmem; (repeat' split at hmem) <;> simp at hmem
      | connack => simp [Options311.step] at hmem
      | disconnect => simp only [Options311.step] at hmem; split at hmem <;> simp at hmem
      | shutdown => simp only [Options311.step] at hmem; split at hmem <;> simp at hmem
      | reconnect => simp only [Options311.step, Conn.dial] at hmem; split at hmem <;> simp at hmem

/-- C82: on a channel, CONNECT is sent exactly if its body is at most 16381 bytes long (see C54), unless `disconnect()` was
called in between. -/
theorem C82_sent_iff {platform : Bytes} {c : Conn} {log : List Entry} (h : Options311.Reachable platform c log)
    (ha : Entry.abort ∉ log) (he : Enabled c .setup) (hd : c.state ≠ .disconnecting) :
    ∃ o, lastOptions log = some o ∧
      ((∃ bytes, (Options311.step platform c .setup).2 = [.sent bytes]) ↔ (expected platform o log).body.length ≤ 16381) ∧
      ((Options311.step platform c .setup).2 = [.unsent] ↔ ¬ (expected platform o log).body.length ≤ 16381) := by
  have hs : c.state ≠ .disconnected := by rcases he with he | he | he <;> simp [he]
  obtain ⟨o, ho, ⟨hl, b, _, heq⟩ | ⟨hl, heq⟩⟩ := setup_sends platform (reachable_inv h) ha hs hd
  · refine ⟨o, ho, ?_, ?_⟩ <;> simp [Options311.step, heq, hl]
  · refine ⟨o, ho, ?_, ?_⟩ <;> simp only [Options311.step, heq] <;> simp [hl]

/-- C82: the CONNECT is exactly what was asked for if no metrics are set and neither user name nor password are empty. -/
theorem C82_asked_partial (platform : Bytes) (o : Options) (log : List Entry) (hm : (lastMetrics log).join = none)
    (hl : ∀ u p, lastLogin log = some (u, p) → u ≠ [] ∧ p ≠ some []) : expected platform o log = asked o log := by
  unfold expected asked userName
  rw [hm]
  cases hl' : lastLogin log with
  | none => simp
  | some l =>
    obtain ⟨u, p⟩ := l
    obtain ⟨h1, h2⟩ := hl u p hl'
    cases p with
    | none => simp [h1]
    | some p =>
      have : p ≠ [] := fun h => h2 (by rw [h])
      simp [h1, this]

/-- C82: every socket is opened to host and port of the last `connect()`, with its TLS options if it has some; without TLS if
no `connect()` so far had some. -/
theorem C82_dial_partial {platform : Bytes} {c : Conn} {log : List Entry} (h : Options311.Reachable platform c log) :
    ∀ pre host port d post, log = pre ++ .dialed host port d :: post →
      ∃ o, lastOptions pre = some o ∧ host = o.host ∧ port = o.port ∧ (∀ t, o.tls = some t → d = .tls t) ∧
        (o.tls = none → ¬ EverTls pre → d = .plain) ∧ (o.tls = none → EverTls pre → d = .zeroed) := by
  induction h with
  | init => intro pre host port d post he; simp at he
  | @step c log h e he ha ih =>
    intro pre host port d post hsplit
    rcases append_split hsplit with ⟨post', hin⟩ | ⟨m, rfl, hes⟩
    · exact ih pre host port d post' hin
    · have hi := reachable_inv h
      have hmem : Entry.dialed host port d ∈ (Options311.step platform c e).2 := by rw [hes]; simp
      cases e with
      | setup =>
        simp only [Options311.step, Conn.setup] at hmem
        split at hmem
        · simp at hmem
        · split at hmem <;> simp at hmem
      | connect o begun =>
        have main : ∀ es, es = [Entry.accepted o, (c.using o).dial] → es = m ++ Entry.dialed host port d :: post →
            m = [.accepted o] ∧ (c.using o).dial = .dialed host port d := by
          rintro es rfl h2
          cases m with
          | nil => simp at h2
          | cons y m =>
            simp only [List.cons_append, List.cons.injEq] at h2
            obtain ⟨rfl, h2⟩ := h2
            cases m with
            | nil => simp only [List.nil_append, List.cons.injEq] at h2; exact ⟨rfl, h2.1⟩
            | cons z m => simp at h2
        have fin : m = [.accepted o] ∧ (c.using o).dial = .dialed host port d := by
          simp only [Options311.step] at hes hmem
          rcases connect_cases c o begun with h1 | ⟨_, h1, _⟩ | ⟨_, h1⟩ | ⟨_, h1⟩
          · rw [h1] at hmem; simp at hmem
          · rw [h1] at hmem; simp at hmem
          · rw [h1] at hes; exact main _ rfl hes
          · rw [h1] at hes; exact main _ rfl hes
        obtain ⟨rfl, hdial⟩ := fin
        have hi' := inv_using hi ha o
        obtain ⟨o', ho', d', hd', h1, h2, h3⟩ := dial_of_inv hi' (by simpa using ha) (by simp [Conn.using])
        rw [hdial] at hd'
        simp only [Entry.dialed.injEq] at hd'
        obtain ⟨rfl, rfl, rfl⟩ := hd'
        exact ⟨o', ho', rfl, rfl, h1, h2, h3⟩
      | setWill w => simp only [Options311.step, Conn.setWill] at hmem; (repeat' split at hmem) <;> simp at hmem
      | setLogin u p => simp only [Options311.step, Conn.setLogin] at hmem; (repeat' split at hmem) <;> simp at hmem
      | setMetrics m => simp only [Options311.step, Conn.setMetrics] at hmem; (repeat' split at hmem) <;> simp at hmem
      | connack => simp [Options311.step] at hmem
      | disconnect => simp only [Options311.step] at hmem; split at hmem <;> simp at hmem
      | shutdown => simp only [Options311.step] at hmem; split at hmem <;> simp at hmem
      | reconnect =>
        have hs : c.state ≠ .disconnected := by rcases he with he | he <;> simp [he]
        simp only [Options311.step] at hes hmem
        split at hmem
        · simp at hmem
        · rename_i hd
          rw [if_neg hd] at hes
          obtain ⟨o', ho', d', hd', h1, h2, h3⟩ := dial_of_inv hi ha hs
          simp only [hd'] at hes
          cases m with
          | nil =>
            simp only [List.nil_append, List.cons.injEq, Entry.dialed.injEq] at hes
            obtain ⟨⟨rfl, rfl, rfl⟩, _⟩ := hes
            simp only [List.append_nil]
            exact ⟨o', ho', rfl, rfl, h1, h2, h3⟩
          | cons y m => simp at hes

/-- C82: when the setters succeed, and that they change nothing when they fail. -/
theorem C82_setters (platform : Bytes) (c : Conn) :
    (∀ w, Options311.step platform c (.setWill w) =
      if isValidTopic w.topic ∧ w.qos ≤ 2 ∧ (c.state = .disconnected ∨ c.state = .connected)
      then ({ c with will := some w }, [.will w true]) else (c, [.will w false])) ∧
    (∀ u p, Options311.step platform c (.setLogin u p) =
      if validUtf8Text u ∧ (c.state = .disconnected ∨ c.state = .connected)
      then ({ c with username := some u, password := p }, [.login u p true]) else (c, [.login u p false])) ∧
    (∀ m, Options311.step platform c (.setMetrics m) =
      if (∀ m', m = some m' → Metrics.validMetrics m') ∧ (c.state = .disconnected ∨ c.state = .connected)
      then ({ c with metrics := m }, [.metrics m true]) else (c, [.metrics m false])) := by
  refine ⟨fun w => ?_, fun u p => ?_, fun m => ?_⟩
  · simp only [Options311.step, Conn.setWill, State.configurable]
    by_cases h1 : isValidTopic w.topic = true
    · by_cases h2 : w.qos ≤ 2
      · by_cases h3 : c.state = .disconnected <;> by_cases h4 : c.state = .connected <;>
          simp [h1, h2, h3, h4, Nat.not_lt.2 h2]
      · simp [h1, h2, Nat.lt_of_not_le h2]
    · simp [h1]
  · simp only [Options311.step, Conn.setLogin, State.configurable]
    by_cases h1 : validUtf8Text u = true
    · by_cases h3 : c.state = .disconnected <;> by_cases h4 : c.state = .connected <;> simp [h1, h3, h4]
    · simp [h1]
  · simp only [Options311.step, Conn.setMetrics, State.configurable]
    cases m with
    | none => by_cases h3 : c.state = .disconnected <;> by_cases h4 : c.state = .connected <;> simp [h3, h4]
    | some m =>
      by_cases h1 : Metrics.validMetrics m = true
      · by_cases h3 : c.state = .disconnected <;> by_cases h4 : c.state = .connected <;> simp [h1, h3, h4]
      · simp [h1]

/-- C82: while a connection is being made or closed, no call and no event changes the configuration. -/
theorem C82_stable (platform : Bytes) (c : Conn) (e : Event) (hd : c.state ≠ .disconnected) (hc : c.state ≠ .connected) :
    { (Options311.step platform c e).1 with state := c.state } = c := by
  cases e with
  | setWill w => rw [(C82_setters platform c).1 w, if_neg (by simp [hd, hc])]
  | setLogin u p => rw [(C82_setters platform c).2.1 u p, if_neg (by simp [hd, hc])]
  | setMetrics m => rw [(C82_setters platform c).2.2 m, if_neg (by simp [hd, hc])]
  | connect o begun =>
    simp only [Options311.step]
    rcases connect_cases c o begun with h1 | ⟨h, _⟩ | ⟨h, _⟩ | ⟨h, _⟩
    · rw [h1]
    · exact absurd h hd
    · exact absurd h hd
    · exact absurd h hd
  | setup => simp only [Options311.step, Conn.setup]; (repeat' split) <;> rfl
  | connack => rfl
  | disconnect => simp only [Options311.step]; split <;> rfl
  | shutdown => simp only [Options311.step]; split <;> rfl
  | reconnect => simp only [Options311.step]; split <;> rfl

/-! ### Cases -/

/-- Runs events. -/
def runOptions (platform : Bytes) : Conn × List Entry → List Event → Conn × List Entry
  | s, [] => s
  | s, e :: es => runOptions platform ((Options311.step platform s.1 e).1, s.2 ++ (Options311.step platform s.1 e).2) es

instance (c : Conn) (e : Event) : Decidable (Enabled c e) := by
  cases e <;> simp only [Enabled] <;> infer_instance

def runnable (platform : Bytes) : Conn × List Entry → List Event → Bool
  | _, [] => true
  | s, e :: es => decide (Enabled s.1 e) && !s.2.contains .abort &&
    runnable platform ((Options311.step platform s.1 e).1, s.2 ++ (Options311.step platform s.1 e).2) es

theorem reachable_run {platform : Bytes} : ∀ (es : List Event) (s : Conn × List Entry),
    Options311.Reachable platform s.1 s.2 → runnable platform s es = true →
    Options311.Reachable platform (runOptions platform s es).1 (runOptions platform s es).2 := by
  intro es
  induction es with
  | nil => intro s h _; exact h
  | cons e es ih =>
    intro s h hr
    simp only [runnable, Bool.and_eq_true, decide_eq_true_eq, Bool.not_eq_true', List.contains_eq_mem,
      decide_eq_false_iff_not] at hr
    exact ih _ (.step h e hr.1.1 hr.1.2) hr.2

/-- Will, user name and password are set; they are sent on the first connection. On it a new will is set, which is sent when
the connection is made again, with everything else as before. -/
def optionsHistory : List Event :=
  [.setWill ⟨[119], 1, true, [109]⟩, .setLogin [117] (some [112]),
   .connect { host := [104], port := 8883, tls := some 7, clientId := [99], cleanSession := true, keepAlive := 30 } true,
   .setWill ⟨[120], 0, false, []⟩, .setup, .connack, .setWill ⟨[121], 0, false, [110]⟩, .shutdown, .reconnect, .setup]

def optionsRun : Conn × List Entry := runOptions [] ({}, []) optionsHistory

example : Options311.Reachable [] optionsRun.1 optionsRun.2 := reachable_run optionsHistory ({}, []) .init (by decide +kernel)

example : optionsRun.2.drop 3 =
    [.dialed [104] 8883 (.tls 7), .will ⟨[120], 0, false, []⟩ false,
     .sent [16, 25, 0, 4, 77, 81, 84, 84, 4, 238, 0, 30, 0, 1, 99, 0, 1, 119, 0, 1, 109, 0, 1, 117, 0, 1, 112],
     .will ⟨[121], 0, false, [110]⟩ true, .dialed [104] 8883 (.tls 7),
     .sent [16, 25, 0, 4, 77, 81, 84, 84, 4, 198, 0, 30, 0, 1, 99, 0, 1, 121, 0, 1, 110, 0, 1, 117, 0, 1, 112]] := by
  decide +kernel

/-- C82_asked_partial applies. -/
example : (lastMetrics optionsRun.2).join = none ∧
    ∀ u p, lastLogin optionsRun.2 = some (u, p) → u ≠ [] ∧ p ≠ some [] := by
  refine ⟨by decide +kernel, ?_⟩
  have : lastLogin optionsRun.2 = some ([117], some [112]) := by decide +kernel
  rw [this]
  intro u p h
  simp only [Option.some.injEq, Prod.mk.injEq] at h
  obtain ⟨rfl, rfl⟩ := h
  simp

/-! ### What is not so -/

/-- C82 is violated: once some `connect()` was given TLS options, `use_tls` stays set (client.c:1796). A later `connect()` without
TLS options, here to another host, opens its socket with TLS options that are all zero. -/
theorem C82_violated_tls : ∃ (c : Conn) (log : List Entry) (o : Options), Options311.Reachable [] c log ∧
    lastOptions log = some o ∧ o.tls = none ∧ log.getLast? = some (.dialed o.host o.port .zeroed) := by
  let o1 : Options := { host := [104], port := 8883, tls := some 7, clientId := [99], cleanSession := true, keepAlive := 30 }
  let o2 : Options := { host := [105], port := 1883, tls := none, clientId := [99], cleanSession := true, keepAlive := 30 }
  let es : List Event := [.connect o1 true, .setup, .connack, .disconnect, .shutdown, .connect o2 true]
  refine ⟨_, _, o2, reachable_run es ({}, []) .init (by decide +kernel), ?_, rfl, ?_⟩ <;> decide +kernel

/-- C82 is violated: an empty password, which MQTT 3.1.1 allows (3.1.3.5), is not sent. -/
theorem C82_violated_password : ∃ (c : Conn) (log : List Entry) (o : Options) (bytes : Bytes),
    Options311.Reachable [] c log ∧ lastOptions log = some o ∧ log.getLast? = some (.sent bytes) ∧
    (asked o log).password = some [] ∧ IsFrame 1 0 { asked o log with password := none }.body bytes ∧
    ¬ IsFrame 1 0 (asked o log).body bytes := by
  let o : Options := { host := [104], port := 1883, clientId := [99], cleanSession := true, keepAlive := 30 }
  let es : List Event := [.setLogin [117] (some []), .connect o true, .setup]
  refine ⟨_, _, o, [16, 16, 0, 4, 77, 81, 84, 84, 4, 130, 0, 30, 0, 1, 99, 0, 1, 117],
    reachable_run es ({}, []) .init (by decide +kernel), by decide +kernel, by decide +kernel, by decide +kernel, ?_, ?_⟩
  · have : ({ asked o (runOptions [] ({}, []) es).2 with password := none } : Spec.Connect).body =
        [0, 4, 77, 81, 84, 84, 4, 130, 0, 30, 0, 1, 99, 0, 1, 117] := by decide +kernel
    rw [this]
    exact ⟨[16], .last 16 (by decide), rfl⟩
  · have : (asked o (runOptions [] ({}, []) es).2).body =
        [0, 4, 77, 81, 84, 84, 4, 194, 0, 30, 0, 1, 99, 0, 1, 117, 0, 0] := by decide +kernel
    rw [this]
    rintro ⟨vs, _, he⟩
    have hl := congrArg List.length he
    simp at hl

/-- C82 is violated: with an empty user name, which `set_login` accepts and MQTT 3.1.1 allows, the password is not sent either. -/
theorem C82_violated_username : ∃ (c : Conn) (log : List Entry) (o : Options) (bytes : Bytes),
    Options311.Reachable [] c log ∧ lastOptions log = some o ∧ log.getLast? = some (.sent bytes) ∧
    (asked o log).username = some [] ∧ (asked o log).password = some [112] ∧
    IsFrame 1 0 { asked o log with username := none, password := none }.body bytes ∧ ¬ IsFrame 1 0 (asked o log).body bytes := by
  let o : Options := { host := [104], port := 1883, clientId := [99], cleanSession := true, keepAlive := 30 }
  let es : List Event := [.setLogin [] (some [112]), .connect o true, .setup]
  refine ⟨_, _, o, [16, 13, 0, 4, 77, 81, 84, 84, 4, 2, 0, 30, 0, 1, 99],
    reachable_run es ({}, []) .init (by decide +kernel), by decide +kernel, by decide +kernel, by decide +kernel,
    by decide +kernel, ?_, ?_⟩
  · have : ({ asked o (runOptions [] ({}, []) es).2 with username := none, password := none } : Spec.Connect).body =
        [0, 4, 77, 81, 84, 84, 4, 2, 0, 30, 0, 1, 99] := by decide +kernel
    rw [this]
    exact ⟨[13], .last 13 (by decide), rfl⟩
  · have : (asked o (runOptions [] ({}, []) es).2).body =
        [0, 4, 77, 81, 84, 84, 4, 194, 0, 30, 0, 1, 99, 0, 0, 0, 1, 112] := by decide +kernel
    rw [this]
    rintro ⟨vs, _, he⟩
    have hl := congrArg List.length he
    simp at hl

end Mqtt.Props
