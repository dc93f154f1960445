import Verif.Lemmas.AdapterOptions
import Verif.Lemmas.MetricsTwice

/-!
C87: an MQTT 3.1.1 connection that uses an MQTT 5 client opens its sockets and sends its CONNECTs with the options that
`connect()` and the setters gave.
-/
namespace Mqtt.Props
open Mqtt Mqtt.V5 Mqtt.AdapterOptions
open Mqtt.Spec (Text Scalar Disallowed)

/-- Events one after another. -/
def adapterPlay (platform : Bytes) : Conn × List AdapterOptions.Entry → List AdapterOptions.Event → Conn × List AdapterOptions.Entry
  | s, [] => s
  | (c, log), e :: es => adapterPlay platform
      ((AdapterOptions.step platform c e).1, log ++ (AdapterOptions.step platform c e).2) es

/-- Every event can happen when it does. -/
def adapterPlays (platform : Bytes) : Conn × List AdapterOptions.Entry → List AdapterOptions.Event → Bool
  | _, [] => true
  | (c, log), e :: es => decide (AdapterOptions.Enabled c e) && decide (AdapterOptions.Entry.crash ∉ log) &&
      adapterPlays platform ((AdapterOptions.step platform c e).1, log ++ (AdapterOptions.step platform c e).2) es

theorem adapterPlay_sound {platform : Bytes} {g : AdapterOptions.Config} {id : Bytes} (es : List AdapterOptions.Event) :
    ∀ {c : Conn} {log : List AdapterOptions.Entry}, AdapterOptions.Reachable platform g id c log →
      adapterPlays platform (c, log) es = true →
      AdapterOptions.Reachable platform g id (adapterPlay platform (c, log) es).1 (adapterPlay platform (c, log) es).2 := by
  induction es with
  | nil => intro c log h _; exact h
  | cons e es ih =>
    intro c log h hp
    simp only [adapterPlays, Bool.and_eq_true, decide_eq_true_eq] at hp
    exact ih (h.step e hp.1.1 hp.1.2) hp.2

/-- A client as it is made. -/
def madeClient (metrics : Option Metrics.Metrics) : AdapterOptions.Config where
  dest := ⟨[104], 8883, none, none⟩
  connect := { clientId := [120], keepAlive := 30 }
  session := .clean
  pingTimeoutMs := 30000
  ackTimeoutSeconds := 60
  minDelayMs := 1000
  maxDelayMs := 120000
  metrics

def madeConn (metrics : Option Metrics.Metrics) : Conn := { config := madeClient metrics, clientId := [120], delayMs := 1000 }

/-- Plain options: server `s`, client id `i`, keep alive 60 seconds. -/
def adapterPlain : AdapterOptions.Options where
  host := [115]
  port := 1883
  socket := some { connectTimeoutMs := 3000 }
  tls := some 7
  clientId := [105]
  cleanSession := false
  keepAlive := 60
  pingTimeoutMs := 3000
  operationTimeoutMs := 1500

/-! ### Calls and their turn -/

/-- A call is refused exactly if the host name is empty or the socket options cannot be used, the QoS or the topic of the will is not
allowed, or the metrics are not text; a call that is refused changes nothing. -/
theorem C87_refused (platform : Bytes) (c : Conn) (x : Call) :
    (AdapterOptions.Entry.refused x ∈ (AdapterOptions.step platform c (.call x)).2 ↔ match x with
      | .connect o => o.host = [] ∨ ∃ s, o.socket = some s ∧ (s.datagram = true ∨ s.connectTimeoutMs = 0)
      | .will w => 2 < w.qos ∨ isValidTopic w.topic = false
      | .metrics m => ∃ m', m = some m' ∧ Metrics.validMetrics m' = false
      | _ => False) ∧
    (AdapterOptions.Entry.refused x ∈ (AdapterOptions.step platform c (.call x)).2 →
      (AdapterOptions.step platform c (.call x)).1 = c) := by
  have hiff : AdapterOptions.Entry.refused x ∈ (AdapterOptions.step platform c (.call x)).2 ↔ x.ok = false := by
    simp only [AdapterOptions.step, Conn.call]
    cases hx : x.ok
    · simp
    · cases x with
      | connect o => simp only [Bool.not_true, Bool.false_eq_true, if_false]; split <;> simp
      | _ => simp
  refine ⟨?_, ?_⟩
  · rw [hiff]
    cases x with
    | connect o =>
      simp only [Call.ok, Bool.and_eq_false_iff, decide_eq_false_iff_not, Bool.not_eq_false']
      cases ho : o.socket with
      | none => simp
      | some s => simp
    | will w =>
      simp only [Call.ok, Bool.and_eq_false_iff, decide_eq_false_iff_not]
      rw [Nat.not_le]
    | metrics m => cases m <;> simp [Call.ok]
    | _ => simp [Call.ok]
  · rw [hiff]
    intro hx
    simp [AdapterOptions.step, Conn.call, hx]

/-- Calls have their effect in the order in which they were made: when the event loop gets to the next task of the adapter, the
oldest call that waits takes effect, or is told that the connection is in use if it is a `connect()`. -/
theorem C87_turn {platform : Bytes} {g : AdapterOptions.Config} {id : Bytes} {c : Conn} {log : List AdapterOptions.Entry}
    (hg : validateConnect g.connect = true) (hm : g.metrics.all Metrics.validMetrics = true)
    (h : AdapterOptions.Reachable platform g id c log) :
    ((seen id log).waiting = [] → (AdapterOptions.step platform c .run).2 = []) ∧
    ∀ x rest, (seen id log).waiting = x :: rest →
      (seen id (log ++ (AdapterOptions.step platform c .run).2)).waiting = rest ∧
      ((AdapterOptions.Entry.took ∈ (AdapterOptions.step platform c .run).2 ∧
          (seen id (log ++ (AdapterOptions.step platform c .run).2)).done = (seen id log).done ++ [x]) ∨
        ((AdapterOptions.step platform c .run).2 = [.already] ∧ (∃ o, x = .connect o) ∧
          (AdapterOptions.step platform c .run).1.config = c.config ∧
          (seen id (log ++ (AdapterOptions.step platform c .run).2)).done = (seen id log).done)) := by
  have hi := reachable_inv hg hm h
  rw [hi.queue]
  refine ⟨fun hq => by simp [AdapterOptions.step, Conn.run, hq], ?_⟩
  intro x rest hq
  have hw := hi.queue.trans hq
  rw [seen_append]
  simp only [AdapterOptions.step, Conn.run, hq]
  cases x with
  | connect o => cases hidle : c.idle <;> simp [Seen.next, hw]
  | login u p =>
    simp only
    generalize c.config.setLogin platform u p = r
    cases r <;> simp [Seen.next, hw]
  | _ => simp [Seen.next, hw]

/-! ### Sockets -/

/-- Every socket is opened to the host and port of the last `connect()` that took effect, with its TLS and socket options. -/
theorem C87_dial {platform : Bytes} {g : AdapterOptions.Config} {id : Bytes} {c : Conn} {log : List AdapterOptions.Entry}
    (hg : validateConnect g.connect = true) (hm : g.metrics.all Metrics.validMetrics = true)
    (h : AdapterOptions.Reachable platform g id c log) (ok : Bool) :
    (AdapterOptions.step platform c (.dial ok)).2 = [.dialed (wantedDest g (seen id log).done)] := by
  rw [← (reachable_inv hg hm h).dest]
  rfl

/-- A CONNECT is never sent over a socket that was opened before the last `connect()` took effect: where the socket was opened to
is what that `connect()` said. -/
theorem C87_socket {platform : Bytes} {g : AdapterOptions.Config} {id : Bytes} {c : Conn} {log : List AdapterOptions.Entry}
    (hg : validateConnect g.connect = true) (hm : g.metrics.all Metrics.validMetrics = true)
    (h : AdapterOptions.Reachable platform g id c log) (he : AdapterOptions.Enabled c .setup) :
    (fresh log = false → (AdapterOptions.step platform c .setup).2 = []) ∧
    ∀ v, AdapterOptions.Entry.sent v ∈ (AdapterOptions.step platform c .setup).2 →
      fresh log = true ∧ lastDial log = some (wantedDest g (seen id log).done) := by
  have hd := reachable_dial h
  have hr : fresh log = !c.reset := hd.ready he
  have hreset : c.reset = true → (AdapterOptions.step platform c .setup).2 = [] := by
    intro hc; simp [AdapterOptions.step, Conn.setup, hc]
  refine ⟨fun hf => hreset (by rw [hf] at hr; simpa using hr), ?_⟩
  intro v hv
  have hc : c.reset = false := by
    cases hc : c.reset
    · rfl
    · rw [hreset hc] at hv; simp at hv
  have hf : fresh log = true := by rw [hr, hc]; rfl
  exact ⟨hf, by rw [← (reachable_inv hg hm h).dest]; exact hd.dial hf⟩

/-! ### CONNECT -/

/-- The user name that `set_login` stored does not matter once metrics are added. -/
def Unspoiled (platform : Bytes) (g : AdapterOptions.Config) (done : List Call) : Prop :=
  ∀ stored, lastLogin done ≠ none → nameWith platform (metricsAtLogin g.metrics done) (askedName g done) = some stored →
    nameWith platform (AdapterOptions.metrics g.metrics done) stored =
      nameWith platform (AdapterOptions.metrics g.metrics done) (askedName g done)

theorem nameWith_none {platform : Bytes} {u stored : Option Bytes} (h : nameWith platform none u = some stored) :
    stored.getD [] = u.getD [] ∧ ∀ s, stored = some s → s = u.getD [] := by
  unfold nameWith at h
  split at h
  · rename_i hu
    cases h
    exact ⟨hu.1.symm, by simp⟩
  · simp only [Metrics.append, Option.some.injEq] at h
    subst h
    exact ⟨rfl, by simp⟩

/-- There were no metrics when the login took effect. -/
theorem unspoiled_none {platform : Bytes} {g : AdapterOptions.Config} {done : List Call}
    (h : metricsAtLogin g.metrics done = none) : Unspoiled platform g done := by
  intro stored _ hs
  rw [h] at hs
  unfold nameWith
  rw [(nameWith_none hs).1]

/-- The metrics are the same as when the login took effect, and neither they nor the user name have separators where they should
not. -/
theorem unspoiled_same {platform : Bytes} {g : AdapterOptions.Config} {done : List Call} {m : Metrics.Metrics}
    (h1 : metricsAtLogin g.metrics done = some m) (h2 : AdapterOptions.metrics g.metrics done = some m)
    (hm : CleanMetrics platform m) (hne : ∀ e ∈ m.entries, e.key ≠ [] ∨ e.value ≠ [])
    (ht : Tidy ((askedName g done).getD [])) : Unspoiled platform g done := by
  intro stored _ hs
  rw [h1] at hs
  rw [h2]
  unfold nameWith at hs ⊢
  simp only [reduceCtorEq, and_false, if_false] at hs ⊢
  cases ha : Metrics.append platform ((askedName g done).getD []) (some m) true with
  | ok out =>
    rw [ha] at hs
    simp only [Option.some.injEq] at hs
    subst hs
    rw [Option.getD_some, append_twice hm hne ht true true ha]
  | error => rw [ha] at hs; simp at hs
  | crash => rw [ha] at hs; simp at hs

theorem setup_cases {platform : Bytes} {g : AdapterOptions.Config} {id : Bytes} {c : Conn} {log : List AdapterOptions.Entry}
    (hg : validateConnect g.connect = true) (hm : g.metrics.all Metrics.validMetrics = true)
    (h : AdapterOptions.Reachable platform g id c log) (hcrash : AdapterOptions.Entry.crash ∉ log) (hr : c.reset = false)
    {o : AdapterOptions.Options} (ho : lastConnect (seen id log).done = some o) (hka : o.keepAlive ≠ 0)
    (hgood : Good (seen id log).done) :
    (AdapterOptions.step platform c .setup).2 =
      if validateConnect (wanted g o (seen id log) c.config.connect.username) = true then
        match nameWith platform (AdapterOptions.metrics g.metrics (seen id log).done) c.config.connect.username with
        | some n => [.sent (wanted g o (seen id log) n)]
        | none => [.crash]
      else [.unsent] := by
  have hi := reachable_inv hg hm h
  have hlog := hi.login hcrash hgood
  obtain ⟨o1, _, _, o4, o5⟩ := hi.options o ho
  have hview : ∀ u, { (connectView c.config.connect c.config.session c.hasConnected c.config.inboundAliases { clientId := c.clientId }).2 with
      username := u } = wanted g o (seen id log) u := by
    intro u
    have hv := hi.view
    rw [o4, o5, hlog.1] at hv
    rw [hv, hi.aliases, ← hi.clientId, o1]
    have hres : (!shouldResume (if o.cleanSession = true then SessionBehavior.clean else SessionBehavior.rejoinAlways) c.hasConnected) =
        o.cleanSession := by
      cases o.cleanSession <;> simp [shouldResume]
    have hk : (if o.keepAlive = 0 then 1200 else o.keepAlive) = o.keepAlive := if_neg hka
    unfold wanted connectView
    rw [hk]
    simp only [hres]
    have hcid : ∀ v : ConnectView, (Settings.reset { clientId := (seen id log).clientId } v).clientId = (seen id log).clientId := by
      intro v
      unfold Settings.reset Settings.set
      cases v.sessionExpiry <;> cases v.receiveMaximum <;> cases v.maximumPacketSize <;> cases v.topicAliasMaximum <;> rfl
    unfold storedWill Will.publish
    cases g.inboundAliases <;> simp only [hcid] <;> cases lastWill (seen id log).done <;> rfl
  have hu : (connectView c.config.connect c.config.session c.hasConnected c.config.inboundAliases { clientId := c.clientId }).2.username =
      c.config.connect.username := by
    unfold connectView; cases c.config.inboundAliases <;> rfl
  have hV : (connectView c.config.connect c.config.session c.hasConnected c.config.inboundAliases { clientId := c.clientId }).2 =
      wanted g o (seen id log) c.config.connect.username := by
    rw [← hview, ← hu]
  simp only [AdapterOptions.step, Conn.setup, hr, Bool.false_eq_true, if_false]
  rw [connect_eq platform hi.valid, hV, hi.metrics]
  have hn : (wanted g o (seen id log) c.config.connect.username).username = c.config.connect.username := rfl
  rw [hn]
  generalize validateConnect _ = b
  cases b
  · rfl
  · cases nameWith platform (AdapterOptions.metrics g.metrics (seen id log).done) c.config.connect.username <;> rfl

/-- A CONNECT that is sent is the one that was asked for: client id, keep alive, session and will, user name with metrics, password,
and the rest as the MQTT 5 client has it. Not said: if keep alive 0 was given, if a login or will that cannot be sent was set, and if
metrics changed after the login. -/
theorem C87_connect_partial {platform : Bytes} {g : AdapterOptions.Config} {id : Bytes} {c : Conn} {log : List AdapterOptions.Entry}
    (hg : validateConnect g.connect = true) (hm : g.metrics.all Metrics.validMetrics = true)
    (h : AdapterOptions.Reachable platform g id c log) (hcrash : AdapterOptions.Entry.crash ∉ log)
    {o : AdapterOptions.Options} (ho : lastConnect (seen id log).done = some o) (hka : o.keepAlive ≠ 0)
    (hgood : Good (seen id log).done) (hun : Unspoiled platform g (seen id log).done) {v : ConnectView}
    (hv : AdapterOptions.Entry.sent v ∈ (AdapterOptions.step platform c .setup).2) :
    ∃ n, nameWith platform (AdapterOptions.metrics g.metrics (seen id log).done) (askedName g (seen id log).done) = some n ∧
      v = wanted g o (seen id log) n := by
  have hr : c.reset = false := by
    cases hr : c.reset
    · rfl
    · simp [AdapterOptions.step, Conn.setup, hr] at hv
  have hlog := ((reachable_inv hg hm h).login hcrash hgood).2
  rw [setup_cases hg hm h hcrash hr ho hka hgood] at hv
  have hname : nameWith platform (AdapterOptions.metrics g.metrics (seen id log).done) c.config.connect.username =
      nameWith platform (AdapterOptions.metrics g.metrics (seen id log).done) (askedName g (seen id log).done) := by
    rcases hlog with ⟨h1, h2⟩ | ⟨u, p, h1, h2⟩
    · rw [h2]; simp [askedName, h1]
    · refine hun _ (by simp [h1]) ?_
      simp [askedName, h1, h2]
  rw [hname] at hv
  split at hv
  · cases hn : nameWith platform (AdapterOptions.metrics g.metrics (seen id log).done) (askedName g (seen id log).done) with
    | none => rw [hn] at hv; simp at hv
    | some n =>
      rw [hn] at hv
      simp only [List.mem_singleton, AdapterOptions.Entry.sent.injEq] at hv
      exact ⟨n, rfl, hv⟩
  · simp at hv

/-- And it is sent, if there were no metrics when the login took effect, the client id is text that fits, and the user name with
metrics is not too long. -/
theorem C87_sends_partial {platform : Bytes} {g : AdapterOptions.Config} {id : Bytes} {c : Conn} {log : List AdapterOptions.Entry}
    (hg : validateConnect g.connect = true) (hm : g.metrics.all Metrics.validMetrics = true)
    (h : AdapterOptions.Reachable platform g id c log) (hcrash : AdapterOptions.Entry.crash ∉ log)
    (he : AdapterOptions.Enabled c .setup) (hf : fresh log = true)
    {o : AdapterOptions.Options} (ho : lastConnect (seen id log).done = some o) (hka : o.keepAlive ≠ 0)
    (hgood : Good (seen id log).done) (hml : metricsAtLogin g.metrics (seen id log).done = none)
    (hid : (seen id log).clientId.length ≤ 65535) (hid2 : validUtf8Text (seen id log).clientId = true) {n : Option Bytes}
    (hn : nameWith platform (AdapterOptions.metrics g.metrics (seen id log).done) (askedName g (seen id log).done) = some n) :
    (AdapterOptions.step platform c .setup).2 = [.sent (wanted g o (seen id log) n)] := by
  have hr : c.reset = false := by
    have hd : fresh log = !c.reset := (reachable_dial h).ready he
    rw [hf] at hd
    cases hr : c.reset
    · rfl
    · rw [hr] at hd; simp at hd
  have hi := reachable_inv hg hm h
  have hlog := (hi.login hcrash hgood).2
  rw [setup_cases hg hm h hcrash hr ho hka hgood]
  have hgu : ∀ s, g.connect.username = some s → s.length ≤ 65535 ∧ validUtf8Text s = true := by
    intro s hs
    unfold validateConnect at hg
    rw [hs] at hg
    refine ⟨Nat.le_of_not_lt fun hx => ?_, ?_⟩
    · simp [hx] at hg
    · cases hx : validUtf8Text s
      · simp [hx] at hg
      · rfl
  have hgp : ∀ s, g.connect.password = some s → s.length ≤ 65535 := by
    intro s hs
    unfold validateConnect at hg
    rw [hs] at hg
    refine Nat.le_of_not_lt fun hx => ?_
    simp [hx] at hg
  have hlast : ∀ u p, lastLogin (seen id log).done = some (u, p) → GoodLogin u p := by
    intro u p hl
    exact hgood _ (lastLogin_mem hl)
  have hvalid : validateConnect (wanted g o (seen id log) c.config.connect.username) = true := by
    refine validView hg hid hid2 ?_ ?_ ?_ _ _ _ _
    · cases hw : lastWill (seen id log).done with
      | none => exact .inl rfl
      | some w =>
        have hmem := lastWill_mem hw
        exact .inr ⟨_, rfl, willValid (hi.allowed _ (by simp [hmem])), hgood _ hmem⟩
    · rcases hlog with ⟨_, h2⟩ | ⟨u, p, h1, h2⟩
      · rw [h2]; exact hgu
      · rw [hml] at h2
        intro s hs
        rw [(nameWith_none h2).2 s hs]
        exact ⟨(hlast u p h1).1, (hlast u p h1).2.1⟩
    · unfold askedPassword
      cases hl : lastLogin (seen id log).done with
      | none => exact hgp
      | some l =>
        obtain ⟨u, p⟩ := l
        have hl := hlast u p hl
        intro s hs
        simp only at hs
        split at hs
        · simp at hs
        · subst hs; exact hl.2.2
  rw [if_pos hvalid]
  have hname : nameWith platform (AdapterOptions.metrics g.metrics (seen id log).done) c.config.connect.username = some n := by
    rw [← hn]
    rcases hlog with ⟨h1, h2⟩ | ⟨u, p, h1, h2⟩
    · rw [h2]; simp [askedName, h1]
    · refine unspoiled_none (g := g) hml _ (by simp [h1]) ?_
      simp [askedName, h1, h2]
  rw [hname]

/-- The times: the limits of the time between attempts in milliseconds, the smaller one first; the time to wait for PINGRESP; the
timeout of operations is rounded up to seconds, none if it is 0 milliseconds. -/
theorem C87_times_partial {platform : Bytes} {g : AdapterOptions.Config} {id : Bytes} {c : Conn} {log : List AdapterOptions.Entry}
    (hg : validateConnect g.connect = true) (hm : g.metrics.all Metrics.validMetrics = true)
    (h : AdapterOptions.Reachable platform g id c log) :
    (∀ lo hi, lastReconnect (seen id log).done = some (lo, hi) →
      c.config.minDelayMs = min lo hi ∧ c.config.maxDelayMs = max lo hi) ∧
    ∀ o, lastConnect (seen id log).done = some o → c.config.pingTimeoutMs = o.pingTimeoutMs ∧
      (o.operationTimeoutMs ≤ 4294966296 → o.operationTimeoutMs ≤ c.config.ackTimeoutSeconds * 1000 ∧
        c.config.ackTimeoutSeconds * 1000 < o.operationTimeoutMs + 1000 ∧
        (c.config.ackTimeoutSeconds = 0 ↔ o.operationTimeoutMs = 0)) := by
  have hi := reachable_inv hg hm h
  refine ⟨?_, ?_⟩
  · intro lo hi' hl
    rcases hi.delays with ⟨h1, _⟩ | ⟨lo2, hi2, h1, h2, h3⟩
    · rw [hl] at h1; cases h1
    · rw [hl] at h1
      injection h1 with h1
      injection h1 with h1 h4
      subst h1 h4
      exact ⟨h2, h3⟩
  · intro o ho
    obtain ⟨_, h2, h3, _⟩ := hi.options o ho
    refine ⟨h2, ?_⟩
    intro hle
    rw [h3]
    unfold ackSeconds
    rw [Nat.mod_eq_of_lt (by omega)]
    omega

/-- The process crashes only if `connect()` is given no socket options, or if the user name with metrics is too long, at the login or
at the CONNECT. -/
theorem C87_crash_partial {platform : Bytes} {g : AdapterOptions.Config} {id : Bytes} {c : Conn} {log : List AdapterOptions.Entry}
    (hg : validateConnect g.connect = true) (hm : g.metrics.all Metrics.validMetrics = true)
    (h : AdapterOptions.Reachable platform g id c log) {e : AdapterOptions.Event}
    (hc : AdapterOptions.Entry.crash ∈ (AdapterOptions.step platform c e).2) :
    (∃ o, e = .call (.connect o) ∧ o.socket = none) ∨
    (∃ u p rest, e = .run ∧ (seen id log).waiting = .login u p :: rest ∧
      nameWith platform (AdapterOptions.metrics g.metrics (seen id log).done) u = none) ∨
    (e = .setup ∧ nameWith platform (AdapterOptions.metrics g.metrics (seen id log).done) c.config.connect.username = none) := by
  have hi := reachable_inv hg hm h
  cases e with
  | call x =>
    left
    simp only [AdapterOptions.step, Conn.call] at hc
    split at hc
    · simp at hc
    · cases x with
      | connect o =>
        simp only at hc
        split at hc
        · rename_i hs
          exact ⟨o, rfl, by simpa using hs⟩
        · simp at hc
      | _ => simp at hc
  | run =>
    right; left
    simp only [AdapterOptions.step, Conn.run] at hc
    cases hq : c.queue with
    | nil => rw [hq] at hc; simp at hc
    | cons x rest =>
      rw [hq] at hc
      cases x with
      | connect o => simp only at hc; split at hc <;> simp at hc
      | login u p =>
        refine ⟨u, p, rest, rfl, by rw [hi.queue, hq], ?_⟩
        simp only at hc
        have hset := setLogin_eq platform c.config hi.valid u p
        rw [hi.metrics] at hset
        cases hn : nameWith platform (AdapterOptions.metrics g.metrics (seen id log).done) u with
        | none => rfl
        | some n =>
          rw [hn] at hset
          have : ∃ g', c.config.setLogin platform u p = some g' := by
            rw [hset]
            split
            · exact ⟨_, rfl⟩
            · exact ⟨_, rfl⟩
          obtain ⟨g', hg'⟩ := this
          rw [hg'] at hc
          simp at hc
      | _ => simp at hc
  | setup =>
    right; right
    refine ⟨rfl, ?_⟩
    simp only [AdapterOptions.step, Conn.setup] at hc
    split at hc
    · simp at hc
    · rw [connect_eq platform hi.valid] at hc
      have hu : (connectView c.config.connect c.config.session c.hasConnected c.config.inboundAliases { clientId := c.clientId }).2.username =
          c.config.connect.username := by
        unfold connectView; cases c.config.inboundAliases <;> rfl
      rw [hu, hi.metrics] at hc
      cases hn : nameWith platform (AdapterOptions.metrics g.metrics (seen id log).done) c.config.connect.username with
      | none => rfl
      | some n =>
        rw [hn] at hc
        generalize validateConnect _ = b at hc
        cases b <;> simp at hc
  | dial ok => simp [AdapterOptions.step, Conn.dial] at hc
  | connack a => cases a <;> simp [AdapterOptions.step] at hc
  | drop => simp [AdapterOptions.step] at hc
  | closed stop => cases stop <;> simp [AdapterOptions.step] at hc
  | adapter i => simp [AdapterOptions.step] at hc

/-! ### Where the code does not do what was asked for -/

/-- What was played, from a client as it is made. -/
def adapterRun (m : Option Metrics.Metrics) (es : List AdapterOptions.Event) : Conn × List AdapterOptions.Entry :=
  adapterPlay (utf "Linux") (madeConn m, []) es

theorem adapterRun_sound {m : Option Metrics.Metrics} {es : List AdapterOptions.Event}
    (h : adapterPlays (utf "Linux") (madeConn m, []) es = true) :
    AdapterOptions.Reachable (utf "Linux") (madeClient m) [120] (adapterRun m es).1 (adapterRun m es).2 :=
  adapterPlay_sound es (.init 1000) h

/-- Keep alive 0: the documentation says that a default is used and a ping is sent every 20 minutes. The CONNECT has keep alive 0, and
no ping is ever sent. -/
theorem C87_violated_keepAlive :
    (∃ v, AdapterOptions.Reachable (utf "Linux") (madeClient none) [120]
        (adapterRun none [.call (.connect { adapterPlain with keepAlive := 0 }), .run, .dial true, .setup]).1
        (adapterRun none [.call (.connect { adapterPlain with keepAlive := 0 }), .run, .dial true, .setup]).2 ∧
      AdapterOptions.Entry.sent v ∈ (adapterRun none [.call (.connect { adapterPlain with keepAlive := 0 }), .run, .dial true, .setup]).2 ∧
      v.keepAlive = 0) ∧
    ∀ now, Client5.pingDue 0 now = 18446744073709551615 := by
  refine ⟨⟨{ clientId := [105], keepAlive := 0, cleanStart := false, sessionExpiry := some 604800 },
    adapterRun_sound (by decide +kernel), by decide +kernel, rfl⟩, ?_⟩
  intro now
  have : Reconnect.convert 0 1 1000000000 = 0 := by decide
  unfold Client5.pingDue
  rw [if_pos this]

/-- Ping timeout 0: the documentation says 3 seconds. With keep alive 60 the client waits 30 seconds for PINGRESP. -/
theorem C87_violated_ping :
    AdapterOptions.Reachable (utf "Linux") (madeClient none) [120]
      (adapterRun none [.call (.connect { adapterPlain with pingTimeoutMs := 0 }), .run]).1
      (adapterRun none [.call (.connect { adapterPlain with pingTimeoutMs := 0 }), .run]).2 ∧
    Client5.pingDeadline (adapterRun none [.call (.connect { adapterPlain with pingTimeoutMs := 0 }), .run]).1.config.pingTimeoutMs
      adapterPlain.keepAlive 1000000000 = 31000000000 :=
  ⟨adapterRun_sound (by decide +kernel), by decide +kernel⟩

/-- An operation timeout of 4294967295 milliseconds, 49 days, becomes no timeout. -/
theorem C87_violated_operation :
    AdapterOptions.Reachable (utf "Linux") (madeClient none) [120]
      (adapterRun none [.call (.connect { adapterPlain with operationTimeoutMs := 4294967295 }), .run]).1
      (adapterRun none [.call (.connect { adapterPlain with operationTimeoutMs := 4294967295 }), .run]).2 ∧
    (adapterRun none [.call (.connect { adapterPlain with operationTimeoutMs := 4294967295 }), .run]).1.config.ackTimeoutSeconds = 0 :=
  ⟨adapterRun_sound (by decide +kernel), by decide +kernel⟩

/-- A user name that is not text: `set_login` returns success, and the next CONNECT has the user name and password that were set
before. -/
theorem C87_violated_login :
    ∃ v, AdapterOptions.Reachable (utf "Linux") (madeClient none) [120]
        (adapterRun none [.call (.login (some [97]) (some [98])), .call (.login (some [255]) none), .call (.connect adapterPlain),
          .run, .run, .run, .dial true, .setup]).1
        (adapterRun none [.call (.login (some [97]) (some [98])), .call (.login (some [255]) none), .call (.connect adapterPlain),
          .run, .run, .run, .dial true, .setup]).2 ∧
      AdapterOptions.Entry.called (.login (some [255]) none) ∈
        (adapterRun none [.call (.login (some [97]) (some [98])), .call (.login (some [255]) none), .call (.connect adapterPlain),
          .run, .run, .run, .dial true, .setup]).2 ∧
      AdapterOptions.Entry.sent v ∈
        (adapterRun none [.call (.login (some [97]) (some [98])), .call (.login (some [255]) none), .call (.connect adapterPlain),
          .run, .run, .run, .dial true, .setup]).2 ∧
      v.username = some [97] ∧ v.password = some [98] :=
  ⟨{ clientId := [105], keepAlive := 60, cleanStart := false, sessionExpiry := some 604800, username := some [97], password := some [98] },
    adapterRun_sound (by decide +kernel), by decide +kernel, by decide +kernel, rfl, rfl⟩

/-- Metrics that were on when the login took effect and then turned off are still in the user name of the next CONNECT. -/
theorem C87_violated_metrics :
    ∃ v, AdapterOptions.Reachable (utf "Linux") (madeClient none) [120]
        (adapterRun none [.call (.metrics (some {})), .call (.login (some (utf "me")) none), .call (.metrics none),
          .call (.connect adapterPlain), .run, .run, .run, .run, .dial true, .setup]).1
        (adapterRun none [.call (.metrics (some {})), .call (.login (some (utf "me")) none), .call (.metrics none),
          .call (.connect adapterPlain), .run, .run, .run, .run, .dial true, .setup]).2 ∧
      AdapterOptions.metrics none (seen [120] (adapterRun none [.call (.metrics (some {})), .call (.login (some (utf "me")) none),
          .call (.metrics none), .call (.connect adapterPlain), .run, .run, .run, .run, .dial true, .setup]).2).done = none ∧
      AdapterOptions.Entry.sent v ∈
        (adapterRun none [.call (.metrics (some {})), .call (.login (some (utf "me")) none), .call (.metrics none),
          .call (.connect adapterPlain), .run, .run, .run, .run, .dial true, .setup]).2 ∧
      v.username = some (utf "me?SDK=IoTDeviceSDK/C&Platform=Linux") :=
  ⟨{ clientId := [105], keepAlive := 60, cleanStart := false, sessionExpiry := some 604800,
     username := some (utf "me?SDK=IoTDeviceSDK/C&Platform=Linux") },
    adapterRun_sound (by decide +kernel), by decide +kernel, by decide +kernel, rfl⟩

theorem longWill {v : ConnectView} {w : PublishView} (hw : v.will = some w) (hp : 65535 < w.payload.length) :
    validateConnect v = false := by
  unfold validateConnect
  simp only [hw, Option.any_some, decide_eq_true_eq, if_pos hp]
  repeat' split
  all_goals rfl

/-- A will with a payload of more than 65535 bytes: `set_will` returns success, and from then on no CONNECT is sent, and every
`set_login` returns success but changes nothing, until another will is set. -/
theorem C87_violated_will (platform : Bytes) (w : AdapterOptions.Will) (hw : (Call.will w).ok = true) (hp : 65535 < w.payload.length) :
    (∀ c : Conn, (AdapterOptions.step platform c (.call (.will w))).2 = [.called (.will w)]) ∧
    ∀ (g : AdapterOptions.Config) (id : Bytes) (c : Conn) (log : List AdapterOptions.Entry), validateConnect g.connect = true →
      g.metrics.all Metrics.validMetrics = true → AdapterOptions.Reachable platform g id c log →
      lastWill (seen id log).done = some w →
      (∀ v, AdapterOptions.Entry.sent v ∉ (AdapterOptions.step platform c .setup).2) ∧
      ∀ u p rest, (seen id log).waiting = .login u p :: rest →
        (AdapterOptions.step platform c .run).2 = [.took] ∧ (AdapterOptions.step platform c .run).1.config = c.config := by
  refine ⟨?_, ?_⟩
  · intro c
    simp [AdapterOptions.step, Conn.call, hw]
  · intro g id c log hg hm h hl
    have hi := reachable_inv hg hm h
    have hwill : c.config.connect.will = some w.publish := by
      rw [hi.view]; simp [storedWill, hl]
    refine ⟨?_, ?_⟩
    · intro v hv
      simp only [AdapterOptions.step, Conn.setup] at hv
      split at hv
      · simp at hv
      · have : validateConnect (connectView c.config.connect c.config.session c.hasConnected c.config.inboundAliases
            { clientId := c.clientId }).2 = false := by
          refine longWill (w := w.publish) ?_ hp
          rw [← hwill]
          unfold connectView; cases c.config.inboundAliases <;> rfl
        rw [connect_eq platform hi.valid, this] at hv
        simp at hv
    · intro u p rest hq
      rw [hi.queue] at hq
      have : c.config.setLogin platform u p = some c.config := by
        rw [setLogin_eq platform c.config hi.valid]
        refine if_neg (Bool.eq_false_iff.1 (longWill (w := w.publish) ?_ hp))
        exact hwill
      simp [AdapterOptions.step, Conn.run, hq, this]

example : AdapterOptions.Call.ok (.will ⟨[116], 0, false, List.replicate 65536 0⟩) = true ∧
    65535 < (List.replicate 65536 (0 : UInt8)).length :=
  ⟨by decide, by rw [List.length_replicate]; decide⟩

/-- A user name of 65535 letters and metrics: the task of `set_login` crashes the process. -/
theorem C87_violated_crash : ∃ u : Bytes, GoodLogin (some u) none ∧ ∃ (c : Conn) (log : List AdapterOptions.Entry),
    AdapterOptions.Reachable (utf "Linux") (madeClient (some {})) [120] c log ∧ AdapterOptions.Entry.crash ∉ log ∧
    (seen [120] log).waiting = [.login (some u) none] ∧
    (AdapterOptions.step (utf "Linux") c .run).2 = [.took, .crash] := by
  have htext : ∀ n, Text (List.replicate n (97 : UInt8)) := by
    intro n
    refine ⟨List.replicate n 97, ?_, ?_⟩
    · intro c hc
      rw [List.eq_of_mem_replicate hc]
      unfold Scalar Disallowed
      omega
    · induction n with
      | zero => rfl
      | succ n ih => rw [List.replicate_succ, List.replicate_succ, List.flatMap_cons, ← ih]; rfl
  have key : ∀ n, n = 65535 → ∃ u : Bytes, GoodLogin (some u) none ∧ ∃ (c : Conn) (log : List AdapterOptions.Entry),
      AdapterOptions.Reachable (utf "Linux") (madeClient (some {})) [120] c log ∧ AdapterOptions.Entry.crash ∉ log ∧
      (seen [120] log).waiting = [.login (some u) none] ∧
      (AdapterOptions.step (utf "Linux") c .run).2 = [.took, .crash] := by
    intro n hn
    have hl : GoodLogin (some (List.replicate n 97)) none :=
      ⟨by simp; omega, (validUtf8Text_iff _).2 (htext n), by simp⟩
    have hr : AdapterOptions.Reachable (utf "Linux") (madeClient (some {})) [120] _ _ :=
      .step (.init 1000) (.call (.login (some (List.replicate n 97)) none)) trivial (by simp)
    have hi := reachable_inv (by decide +kernel) (by decide +kernel) hr
    refine ⟨List.replicate n 97, hl, _, _, hr, ?_, ?_, ?_⟩
    · simp [AdapterOptions.step, Conn.call, Call.ok]
    · simp [AdapterOptions.step, Conn.call, Call.ok, seen, Seen.next]
    · have hv := loginValid hi (by decide +kernel) (by simp [AdapterOptions.step, Conn.call, Call.ok, seen, Seen.next, Good]) hl
      have hname : nameWith (utf "Linux") (some {}) (some (List.replicate n 97)) = none := by
        have hq : Query (List.replicate n (97 : UInt8)) (List.replicate n 97) [] :=
          .inl ⟨by intro h; exact absurd (List.eq_of_mem_replicate h) (by decide), rfl, rfl⟩
        have hps := (parseUsername_iff _ _ _).2 hq
        unfold nameWith
        rw [if_neg (by simp), Option.getD_some]
        have hb : Metrics.buildSize 1 0 (Metrics.newParams (utf "Linux") {} []) = 34 := by decide +kernel
        have hvm : Metrics.validMetrics {} = true := by decide +kernel
        simp only [Metrics.append, hps, hvm]
        rw [if_neg (by simp), if_pos (by rw [hb, List.length_replicate]; omega)]
        rfl
      have hset := setLogin_eq (utf "Linux") (madeClient (some {})) (by decide +kernel) (some (List.replicate n 97)) none
      have hm : (madeClient (some {})).metrics = some {} := rfl
      have hset := hset.trans (if_pos hv)
      rw [hm, hname] at hset
      simp only [AdapterOptions.step, Conn.call, Call.ok, Bool.not_true, Bool.false_eq_true, if_false, List.nil_append, Conn.run]
      rw [hset]
      rfl
  exact key 65535 rfl

/-! ### Cases -/

/-- A will, a login and metrics, then `connect()`: the CONNECT has them. -/
example : (adapterRun none [.call (.will ⟨utf "w", 1, true, [1, 2]⟩), .call (.login (some (utf "me")) (some [9])),
      .call (.metrics (some {})), .call (.connect adapterPlain), .run, .run, .run, .run, .dial true, .setup]).2.getLast? =
    some (.sent { clientId := [105], keepAlive := 60, cleanStart := false, sessionExpiry := some 604800,
                  will := some { topic := utf "w", qos := 1, retain := true, payload := [1, 2] },
                  username := some (utf "me?SDK=IoTDeviceSDK/C&Platform=Linux"), password := some [9] }) := by decide +kernel

/-- The hypotheses of `C87_sends_partial` are met there. -/
example :
    let x := adapterRun none [.call (.will ⟨utf "w", 1, true, [1, 2]⟩), .call (.login (some (utf "me")) (some [9])),
      .call (.metrics (some {})), .call (.connect adapterPlain), .run, .run, .run, .run, .dial true]
    AdapterOptions.Reachable (utf "Linux") (madeClient none) [120] x.1 x.2 ∧ AdapterOptions.Entry.crash ∉ x.2 ∧
      AdapterOptions.Enabled x.1 .setup ∧ fresh x.2 = true ∧ lastConnect (seen [120] x.2).done = some adapterPlain ∧
      Good (seen [120] x.2).done ∧ metricsAtLogin none (seen [120] x.2).done = none ∧
      validUtf8Text (seen [120] x.2).clientId = true := by
  refine ⟨adapterRun_sound (by decide +kernel), by decide +kernel, by decide +kernel, by decide +kernel, by decide +kernel, ?_,
    by decide +kernel, by decide +kernel⟩
  have hd : (seen [120] (adapterRun none [.call (.will ⟨utf "w", 1, true, [1, 2]⟩), .call (.login (some (utf "me")) (some [9])),
      .call (.metrics (some {})), .call (.connect adapterPlain), .run, .run, .run, .run, .dial true]).2).done =
      [.will ⟨utf "w", 1, true, [1, 2]⟩, .login (some (utf "me")) (some [9]), .metrics (some {}), .connect adapterPlain] := by
    decide +kernel
  rw [hd]
  intro x hx
  simp only [List.mem_cons, List.not_mem_nil, or_false] at hx
  rcases hx with rfl | rfl | rfl | rfl
  · decide
  · exact ⟨by decide +kernel, by decide +kernel, by decide⟩
  · trivial
  · trivial

/-- Two calls of `connect()`: the second finds the connection in use. After a `disconnect()` a third one takes effect while a socket is
being opened; no CONNECT goes over that socket. -/
example : (adapterRun none [.call (.connect adapterPlain), .call (.connect { adapterPlain with host := [116] }), .run, .run, .dial true,
      .adapter true, .call (.connect { adapterPlain with host := [117] }), .run, .setup, .closed false, .dial true]).2 =
    [.called (.connect adapterPlain), .called (.connect { adapterPlain with host := [116] }), .took, .already,
     .dialed ⟨[115], 1883, some { connectTimeoutMs := 3000 }, some 7⟩,
     .called (.connect { adapterPlain with host := [117] }), .took,
     .dialed ⟨[117], 1883, some { connectTimeoutMs := 3000 }, some 7⟩] := by decide +kernel

/-- Times. -/
example : (adapterRun none [.call (.reconnect 5000 1000), .call (.connect adapterPlain), .run, .run]).1.config.minDelayMs = 1000 ∧
    (adapterRun none [.call (.reconnect 5000 1000), .call (.connect adapterPlain), .run, .run]).1.config.maxDelayMs = 5000 ∧
    (adapterRun none [.call (.reconnect 5000 1000), .call (.connect adapterPlain), .run, .run]).1.config.ackTimeoutSeconds = 2 := by
  decide +kernel

/-- Metrics that stay the same do not spoil a plain user name. -/
example : Unspoiled (utf "Linux") (madeClient (some {})) [.login (some (utf "me")) none] :=
  unspoiled_same (m := {}) rfl rfl ⟨by decide +kernel, by simp, by simp⟩ (by simp) (by
    intro base ps hq
    have h1 := (parseUsername_iff _ _ _).2 hq
    have h2 : Metrics.parseUsername (utf "me") = (utf "me", []) := by decide +kernel
    have h3 : (base, ps) = (utf "me", []) := h1.symm.trans h2
    obtain ⟨_, rfl⟩ := Prod.mk.inj h3
    exact ⟨by simp, by intro v es h; simp [first] at h⟩)

/-- An empty host name and a will for a filter are refused. -/
example : (adapterRun none [.call (.connect { adapterPlain with host := [] }), .call (.will ⟨utf "#", 0, false, []⟩)]).2 =
    [.refused (.connect { adapterPlain with host := [] }), .refused (.will ⟨utf "#", 0, false, []⟩)] := by decide +kernel

end Mqtt.Props
