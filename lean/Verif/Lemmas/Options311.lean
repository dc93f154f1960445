import Verif.Spec.Options311

/-! The configuration of an MQTT 3.1.1 connection is what was asked for. -/
namespace Mqtt.Options311
open Mqtt

theorem lastWill_append (a b : List Entry) : lastWill (a ++ b) = (lastWill b).or (lastWill a) := by
  induction a with
  | nil => simp [lastWill]
  | cons e a ih => simp only [List.cons_append, lastWill, ih]; cases lastWill b <;> simp

theorem lastLogin_append (a b : List Entry) : lastLogin (a ++ b) = (lastLogin b).or (lastLogin a) := by
  induction a with
  | nil => simp [lastLogin]
  | cons e a ih => simp only [List.cons_append, lastLogin, ih]; cases lastLogin b <;> simp

theorem lastMetrics_append (a b : List Entry) : lastMetrics (a ++ b) = (lastMetrics b).or (lastMetrics a) := by
  induction a with
  | nil => simp [lastMetrics]
  | cons e a ih => simp only [List.cons_append, lastMetrics, ih]; cases lastMetrics b <;> simp

theorem lastOptions_append (a b : List Entry) : lastOptions (a ++ b) = (lastOptions b).or (lastOptions a) := by
  induction a with
  | nil => simp [lastOptions]
  | cons e a ih => simp only [List.cons_append, lastOptions, ih]; cases lastOptions b <;> simp

/-- The connection has the options. -/
structure Has (c : Conn) (o : Options) : Prop where
  host : c.host = o.host
  port : c.port = o.port
  cleanSession : c.cleanSession = o.cleanSession
  keepAlive : c.keepAlive = if o.keepAlive = 0 then 1200 else o.keepAlive
  clientId : c.clientId = o.clientId
  tls : c.state ≠ .disconnected → c.tls = o.tls

structure Inv (c : Conn) (log : List Entry) : Prop where
  will : c.will = lastWill log
  username : c.username = (lastLogin log).map (·.1)
  password : c.password = (lastLogin log).bind (·.2)
  metrics : c.metrics = (lastMetrics log).join
  idle : lastOptions log = none → c.state = .disconnected
  has : Entry.abort ∉ log → ∀ o, lastOptions log = some o → Has c o
  useTls : Entry.abort ∉ log → (c.useTls = true ↔ EverTls log)
  topic : ∀ w, c.will = some w → isValidTopic w.topic = true ∧ w.qos ≤ 2

theorem inv_init : Inv {} [] := by
  constructor <;> simp [lastWill, lastLogin, lastMetrics, lastOptions, EverTls]

theorem everTls_append (a b : List Entry) : EverTls (a ++ b) ↔ EverTls a ∨ EverTls b := by
  simp only [EverTls, List.mem_append]
  constructor
  · rintro ⟨o, h | h, ht⟩
    · exact Or.inl ⟨o, h, ht⟩
    · exact Or.inr ⟨o, h, ht⟩
  · rintro (⟨o, h, ht⟩ | ⟨o, h, ht⟩)
    · exact ⟨o, Or.inl h, ht⟩
    · exact ⟨o, Or.inr h, ht⟩

/-- Entries that ask for nothing. -/
def Silent (es : List Entry) : Prop :=
  lastWill es = none ∧ lastLogin es = none ∧ lastMetrics es = none ∧ lastOptions es = none ∧ Entry.abort ∉ es ∧ ¬ EverTls es

theorem inv_silent {c : Conn} {log es : List Entry} (h : Inv c log) (hs : Silent es) : Inv c (log ++ es) := by
  obtain ⟨h1, h2, h3, h4, h5, h6⟩ := hs
  obtain ⟨i1, i2, i3, i4, i5, i6, i7, i8⟩ := h
  constructor
  · rw [lastWill_append, h1]; exact i1
  · rw [lastLogin_append, h2]; exact i2
  · rw [lastLogin_append, h2]; exact i3
  · rw [lastMetrics_append, h3]; exact i4
  · rw [lastOptions_append, h4]; exact i5
  · rw [lastOptions_append, h4, List.mem_append]; exact fun ha => i6 fun hb => ha (Or.inl hb)
  · rw [everTls_append, List.mem_append]
    intro ha
    rw [i7 fun hb => ha (Or.inl hb)]
    exact ⟨Or.inl, fun h => h.resolve_right h6⟩
  · exact i8

/-- States may change as long as the connection is not in use. -/
theorem inv_state {c : Conn} {log : List Entry} (h : Inv c log) (s : State) (hs : c.state ≠ .disconnected) :
    Inv { c with state := s } log := by
  obtain ⟨i1, i2, i3, i4, i5, i6, i7, i8⟩ := h
  refine ⟨i1, i2, i3, i4, fun h => absurd (i5 h) hs, fun ha o ho => ?_, i7, i8⟩
  obtain ⟨j1, j2, j3, j4, j5, j6⟩ := i6 ha o ho
  exact ⟨j1, j2, j3, j4, j5, fun _ => j6 hs⟩

theorem inv_setWill {c : Conn} {log : List Entry} (h : Inv c log) (w : Will) :
    Inv (c.setWill w).1 (log ++ (c.setWill w).2) := by
  have hr : Silent [.will w false] := by simp [Silent, lastWill, lastLogin, lastMetrics, lastOptions, EverTls]
  unfold Conn.setWill
  split
  · exact inv_silent h hr
  · rename_i ht
    split
    · exact inv_silent h hr
    · rename_i hq
      split
      · exact inv_silent h hr
      · obtain ⟨i1, i2, i3, i4, i5, i6, i7, i8⟩ := h
        constructor
        · simp [lastWill_append, lastWill]
        · simpa [lastLogin_append, lastLogin] using i2
        · simpa [lastLogin_append, lastLogin] using i3
        · simpa [lastMetrics_append, lastMetrics] using i4
        · simpa [lastOptions_append, lastOptions] using i5
        · intro ha o ho
          obtain ⟨j1, j2, j3, j4, j5, j6⟩ := i6 (by simpa using ha) o (by simpa [lastOptions_append, lastOptions] using ho)
          exact ⟨j1, j2, j3, j4, j5, j6⟩
        · intro ha
          rw [everTls_append]
          simpa [EverTls] using i7 (by simpa using ha)
        · intro w' hw
          simp only [Option.some.injEq] at hw
          subst hw
          exact ⟨by simpa using ht, by omega⟩

theorem inv_setLogin {c : Conn} {log : List Entry} (h : Inv c log) (u : Bytes) (p : Option Bytes) :
    Inv (c.setLogin u p).1 (log ++ (c.setLogin u p).2) := by
  have hr : Silent [.login u p false] := by simp [Silent, lastWill, lastLogin, lastMetrics, lastOptions, EverTls]
  unfold Conn.setLogin
  split
  · exact inv_silent h hr
  · split
    · exact inv_silent h hr
    · obtain ⟨i1, i2, i3, i4, i5, i6, i7, i8⟩ := h
      constructor
      · simpa [lastWill_append, lastWill] using i1
      · simp [lastLogin_append, lastLogin]
      · simp [lastLogin_append, lastLogin]
      · simpa [lastMetrics_append, lastMetrics] using i4
      · simpa [lastOptions_append, lastOptions] using i5
      · intro ha o ho
        obtain ⟨j1, j2, j3, j4, j5, j6⟩ := i6 (by simpa using ha) o (by simpa [lastOptions_append, lastOptions] using ho)
        exact ⟨j1, j2, j3, j4, j5, j6⟩
      · intro ha
        rw [everTls_append]
        simpa [EverTls] using i7 (by simpa using ha)
      · exact i8

theorem inv_setMetrics {c : Conn} {log : List Entry} (h : Inv c log) (m : Option Metrics.Metrics) :
    Inv (c.setMetrics m).1 (log ++ (c.setMetrics m).2) := by
  have hr : Silent [.metrics m false] := by simp [Silent, lastWill, lastLogin, lastMetrics, lastOptions, EverTls]
  unfold Conn.setMetrics
  split
  · exact inv_silent h hr
  · split
    · exact inv_silent h hr
    · obtain ⟨i1, i2, i3, i4, i5, i6, i7, i8⟩ := h
      constructor
      · simpa [lastWill_append, lastWill] using i1
      · simpa [lastLogin_append, lastLogin] using i2
      · simpa [lastLogin_append, lastLogin] using i3
      · simp [lastMetrics_append, lastMetrics]
      · simpa [lastOptions_append, lastOptions] using i5
      · intro ha o ho
        obtain ⟨j1, j2, j3, j4, j5, j6⟩ := i6 (by simpa using ha) o (by simpa [lastOptions_append, lastOptions] using ho)
        exact ⟨j1, j2, j3, j4, j5, j6⟩
      · intro ha
        rw [everTls_append]
        simpa [EverTls] using i7 (by simpa using ha)
      · exact i8

theorem silent_dial (c : Conn) : Silent [c.dial] := by
  simp [Silent, lastWill, lastLogin, lastMetrics, lastOptions, EverTls, Conn.dial]

/-- The connection `connect()` dials with. -/
def Conn.using (c : Conn) (o : Options) : Conn :=
  { c with
    state := .connecting
    host := o.host
    port := o.port
    cleanSession := o.cleanSession
    keepAlive := if o.keepAlive = 0 then 1200 else o.keepAlive
    clientId := o.clientId
    useTls := c.useTls || o.tls.isSome
    tls := o.tls }

theorem inv_using {c : Conn} {log : List Entry} (h : Inv c log) (ha : Entry.abort ∉ log) (o : Options) :
    Inv (c.using o) (log ++ [.accepted o]) := by
  obtain ⟨i1, i2, i3, i4, i5, i6, i7, i8⟩ := h
  constructor
  · simpa [lastWill_append, lastWill, Conn.using] using i1
  · simpa [lastLogin_append, lastLogin, Conn.using] using i2
  · simpa [lastLogin_append, lastLogin, Conn.using] using i3
  · simpa [lastMetrics_append, lastMetrics, Conn.using] using i4
  · simp [lastOptions_append, lastOptions]
  · intro _ o' ho
    simp only [lastOptions_append, lastOptions, Option.some_or, Option.some.injEq] at ho
    subst ho
    exact ⟨rfl, rfl, rfl, rfl, rfl, fun _ => rfl⟩
  · intro _
    rw [everTls_append]
    simp only [Conn.using, Bool.or_eq_true, i7 ha]
    apply or_congr Iff.rfl
    simp only [EverTls, List.mem_singleton, Entry.accepted.injEq, exists_eq_left]
    cases o.tls <;> simp
  · exact i8

theorem connect_cases (c : Conn) (o : Options) (begun : Bool) :
    c.connect o begun = (c, [.refused o]) ∨
    (c.state = .disconnected ∧ (c.connect o begun).2 = [.accepted o, .abort] ∧ (c.connect o begun).1.will = c.will ∧
      (c.connect o begun).1.username = c.username ∧ (c.connect o begun).1.password = c.password ∧
      (c.connect o begun).1.metrics = c.metrics) ∨
    (c.state = .disconnected ∧ c.connect o begun = (c.using o, [.accepted o, (c.using o).dial])) ∨
    (c.state = .disconnected ∧
      c.connect o begun = ({ c.using o with state := .disconnected, tls := none }, [.accepted o, (c.using o).dial])) := by
  unfold Conn.connect
  by_cases h1 : (!validUtf8Text o.clientId) = true
  · rw [if_pos h1]; exact Or.inl rfl
  rw [if_neg h1]
  by_cases h2 : c.state ≠ .disconnected
  · rw [if_pos h2]; exact Or.inl rfl
  rw [if_neg h2]
  have h2 : c.state = .disconnected := by simpa using h2
  right
  cases KeepAlive311.configure o.keepAlive.toNat o.pingTimeoutMs with
  | none => exact Or.inl ⟨h2, rfl, rfl, rfl, rfl, rfl⟩
  | some _ =>
    right
    obtain ⟨host, port, tls, clientId, cleanSession, keepAlive, pingTimeoutMs⟩ := o
    cases tls with
    | none => cases begun <;> simp [Conn.using, h2]
    | some t => cases begun <;> simp [Conn.using, h2]

theorem inv_connect {c : Conn} {log : List Entry} (h : Inv c log) (ha : Entry.abort ∉ log) (o : Options) (begun : Bool) :
    Inv (c.connect o begun).1 (log ++ (c.connect o begun).2) := by
  rcases connect_cases c o begun with he | ⟨_, he, e1, e2, e3, e4⟩ | ⟨_, he⟩ | ⟨_, he⟩
  · rw [he]
    exact inv_silent h (by simp [Silent, lastWill, lastLogin, lastMetrics, lastOptions, EverTls])
  · rw [he]
    obtain ⟨i1, i2, i3, i4, i5, i6, i7, i8⟩ := h
    constructor
    · simpa [lastWill_append, lastWill, e1] using i1
    · simpa [lastLogin_append, lastLogin, e2] using i2
    · simpa [lastLogin_append, lastLogin, e3] using i3
    · simpa [lastMetrics_append, lastMetrics, e4] using i4
    · simp [lastOptions_append, lastOptions]
    · simp
    · simp
    · rw [e1]; exact i8
  · rw [he]
    have := inv_silent (inv_using h ha o) (silent_dial (c.using o))
    simpa using this
  · rw [he]
    have := inv_silent (inv_using h ha o) (silent_dial (c.using o))
    obtain ⟨i1, i2, i3, i4, i5, i6, i7, i8⟩ := this
    simp only [List.append_assoc, List.singleton_append] at *
    refine ⟨i1, i2, i3, i4, fun _ => rfl, fun ha o ho => ?_, i7, i8⟩
    obtain ⟨j1, j2, j3, j4, j5, j6⟩ := i6 ha o ho
    exact ⟨j1, j2, j3, j4, j5, fun h => absurd rfl h⟩

theorem inv_step (platform : Bytes) {c : Conn} {log : List Entry} (h : Inv c log) (ha : Entry.abort ∉ log) (e : Event)
    (he : Enabled c e) : Inv (step platform c e).1 (log ++ (step platform c e).2) := by
  cases e with
  | setWill w => exact inv_setWill h w
  | setLogin u p => exact inv_setLogin h u p
  | setMetrics m => exact inv_setMetrics h m
  | connect o begun => exact inv_connect h ha o begun
  | setup =>
    simp only [step, Conn.setup]
    split
    · simpa using h
    · split
      · exact inv_silent h (by simp [Silent, lastWill, lastLogin, lastMetrics, lastOptions, EverTls])
      · exact inv_silent h (by simp [Silent, lastWill, lastLogin, lastMetrics, lastOptions, EverTls])
  | connack =>
    simp only [step, List.append_nil]
    exact inv_state h _ (by rcases he with he | he <;> simp [he])
  | disconnect =>
    simp only [step]
    split
    · rename_i hs
      simp only [List.append_nil]
      exact inv_state h _ (by rcases hs with he | he <;> simp [he])
    · simpa using h
  | shutdown =>
    simp only [step]
    have he : c.state ≠ .disconnected := he
    split
    · simp only [List.append_nil]; exact inv_state h _ he
    · simpa using h
    · simp only [List.append_nil]; exact inv_state h _ he
  | reconnect =>
    simp only [step]
    split
    · rename_i hs
      simp only [List.append_nil]; exact inv_state h _ (by simp [hs])
    · exact inv_silent h (silent_dial c)

theorem reachable_inv {platform : Bytes} {c : Conn} {log : List Entry} (h : Reachable platform c log) : Inv c log := by
  induction h with
  | init => exact inv_init
  | step h e he ha ih => exact inv_step platform ih ha e he

theorem dial_of_inv {c : Conn} {log : List Entry} (h : Inv c log) (ha : Entry.abort ∉ log) (hs : c.state ≠ .disconnected) :
    ∃ o, lastOptions log = some o ∧ ∃ d, c.dial = .dialed o.host o.port d ∧ (∀ t, o.tls = some t → d = .tls t) ∧
      (o.tls = none → ¬ EverTls log → d = .plain) ∧ (o.tls = none → EverTls log → d = .zeroed) := by
  cases ho : lastOptions log with
  | none => exact absurd (h.idle ho) hs
  | some o =>
    obtain ⟨j1, j2, j3, j4, j5, j6⟩ := h.has ha o ho
    have hu := h.useTls ha
    have ht := j6 hs
    have hin : ∀ log, lastOptions log = some o → Entry.accepted o ∈ log := by
      intro log
      induction log with
      | nil => simp [lastOptions]
      | cons e log ih =>
        simp only [lastOptions]
        split
        · rename_i o' h; intro he; simp only [Option.some.injEq] at he; subst he; simp [ih h]
        · split
          · simp only [Option.some.injEq]; rintro rfl; simp
          · simp
    refine ⟨o, rfl, _, by rw [Conn.dial, j1, j2], ?_, ?_, ?_⟩
    · intro t hot
      have : c.useTls = true := hu.2 ⟨o, hin log ho, by simp [hot]⟩
      rw [this, ht, hot]; rfl
    · intro _ hn
      have : c.useTls = false := by
        cases hc : c.useTls with
        | false => rfl
        | true => exact absurd (hu.1 hc) hn
      rw [this]; rfl
    · intro hot hn
      rw [hu.2 hn, ht, hot]; rfl

end Mqtt.Options311
