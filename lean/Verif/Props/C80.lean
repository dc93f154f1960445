import Verif.Lemmas.KeepAlive311Full

/-!
C80: On an MQTT 3.1.1 connection a packet is sent at least once in every keep-alive interval, a ping that is not answered
within the ping timeout closes the channel, and so does a CONNECT; nothing else is a timeout.

`Reachable cfg c` says that `c` is a state of a channel of a connection whose options are `cfg`; it may be any of the
channels of the connection, with whatever requests are left from earlier ones.
-/
namespace Mqtt.Props
open Mqtt.KeepAlive311

/-- The options: a keep-alive interval of 0 is 1200 s, a ping timeout of 0 is 3 s, and the process is aborted if the ping
timeout is not below the keep-alive interval. -/
theorem C80_options (secs ms : Nat) :
    configure secs ms =
      (let ka := if secs = 0 then 1200 * 1000000000 else secs * 1000000000
       let pt := if ms = 0 then 3 * 1000000000 else ms * 1000000
       if pt < ka then some { keepAlive := ka, pingTimeout := pt } else none) := by
  unfold configure
  by_cases h1 : secs = 0 <;> by_cases h2 : ms = 0 <;> simp only [h1, h2, if_true, if_false] <;> split <;> split <;>
    first | rfl | omega

theorem configure_some {secs ms : Nat} {cfg : Config} (h : configure secs ms = some cfg) :
    cfg.pingTimeout < cfg.keepAlive ∧ 1 ≤ cfg.pingTimeout := by
  by_cases h1 : secs = 0 <;> by_cases h2 : ms = 0 <;> simp only [configure, h1, h2, if_true, if_false] at h <;> split at h
  all_goals first
    | (cases h; done)
    | injection h with h
      subst h
      dsimp only
      omega

theorem configure_lt {secs ms : Nat} {cfg : Config} (h : configure secs ms = some cfg) : cfg.pingTimeout < cfg.keepAlive :=
  (configure_some h).1

example : configure 30 0 = some { keepAlive := 30000000000, pingTimeout := 3000000000 } := by decide
example : configure 3 3000 = none := by decide

/-- While an accepted connection is open, the acceptance or the last packet is never longer ago than the keep-alive
interval, and it never was; provided no ping is left out. -/
theorem C80_alive {secs ms : Nat} {cfg : Config} (hcfg : configure secs ms = some cfg) {c : Chan} (h : Reachable cfg c)
    (hs : ∀ e ∈ c.log, e.isSkipped = false) :
    Within cfg.keepAlive (c.log.filterMap Entry.sign) ∧
      (c.phase = .connected → ∃ s, (c.log.filterMap Entry.sign).getLast? = some s ∧ s ≤ c.now ∧ c.now ≤ s + cfg.keepAlive) := by
  obtain ⟨t0, ht⟩ := timed (configure_lt hcfg) h
  rw [no_skipped hs]
  refine ⟨ht.beating.gaps, fun hc => ?_⟩
  obtain ⟨s, h1, h2, _, _, h5⟩ := ht.beating.last (ht.phases.connected hc)
  exact ⟨s, h1, h2, h5 (.inl hc)⟩

/-- A ping is left out only if there are requests for all 65535 packet ids. -/
theorem C80_skipped {secs ms : Nat} {cfg : Config} (hcfg : configure secs ms = some cfg) {c c' : Chan} {e : Event} {t : Nat}
    (h : Reachable cfg c) (he : Enabled c e) (hs : step cfg c e = .ok c') (hl : .skipped t ∈ c'.log) :
    .skipped t ∈ c.log ∨ 65535 ≤ c.reqs.length := by
  obtain ⟨t0, ht⟩ := timed (configure_lt hcfg) h
  have hlt := configure_lt hcfg
  have hsnoc : ∀ x : Entry, (∀ t, x ≠ .skipped t) → .skipped t ∈ c.log ++ [x] → .skipped t ∈ c.log := by
    intro x hx hm
    rw [List.mem_append, List.mem_singleton] at hm
    rcases hm with hm | hm
    · exact hm
    · exact absurd hm.symm (hx t)
  cases e with
  | pingTask =>
    injection hs with hs; subst hs
    simp only [Chan.pingTask] at hl
    split at hl
    · next hdue =>
      split at hl
      · exact .inl hl
      · split at hl
        · next hf =>
          right
          have hno : none ∉ c.tasks := fun hn => by have := ht.pulsing.ahead hn; omega
          have hnil : c.tasks.filter (·.isNone) = [] := by
            rw [List.filter_eq_nil_iff]
            intro x hx hxn
            cases x with
            | none => exact hno hx
            | some u => cases hxn
          have hf' : c.reqs.length + (c.tasks.filter (·.isNone)).length ≥ 65535 := by simpa [Chan.full] using hf
          rw [hnil] at hf'
          simpa using hf'
        · exact .inl hl
    · exact .inl hl
  | connack a =>
    simp only [step, Chan.connack] at hs
    split at hs
    · cases hs; exact .inl hl
    · split at hs
      · cases hs; exact .inl (hsnoc _ (by simp) hl)
      · split at hs
        · cases hs
        · injection hs with hs; subst hs; exact .inl (hsnoc _ (by simp) hl)
  | tick d => injection hs with hs; subst hs; exact .inl hl
  | pingresp => injection hs with hs; subst hs; exact .inl (hsnoc _ (by simp) hl)
  | submit a =>
    injection hs with hs; subst hs
    simp only [Chan.submit] at hl
    split at hl <;> exact .inl hl
  | send uid =>
    injection hs with hs; subst hs
    simp only [Chan.send] at hl
    split at hl
    · exact .inl hl
    · exact .inl (hsnoc _ (by simp) hl)
  | fail uid => injection hs with hs; subst hs; exact .inl hl
  | sendPing => injection hs with hs; subst hs; exact .inl (hsnoc _ (by simp) hl)
  | pingTimer t' =>
    injection hs with hs; subst hs
    simp only [Chan.pingTimer] at hl
    split at hl
    · exact .inl (hsnoc _ (by simp) hl)
    · exact .inl hl
  | connackTimer =>
    injection hs with hs; subst hs
    simp only [Chan.connackTimer] at hl
    split at hl
    · exact .inl (hsnoc _ (by simp) hl)
    · exact .inl hl
  | ack uid =>
    injection hs with hs; subst hs
    simp only [Chan.ack] at hl
    split at hl <;> exact .inl hl
  | drop uid => injection hs with hs; subst hs; exact .inl hl
  | disconnect =>
    injection hs with hs; subst hs
    split at hl <;> exact .inl hl
  | shut => injection hs with hs; subst hs; exact .inl (hsnoc _ (by simp) hl)

/-- The packets of a channel: after CONNECT each is sent within the keep-alive interval of the one before, except that the
first may take as long as the ping timeout more. What is missing: that is not within the keep-alive interval of CONNECT, see
`C80_violated_first`. -/
theorem C80_packets_partial {secs ms : Nat} {cfg : Config} (hcfg : configure secs ms = some cfg) {c : Chan} (h : Reachable cfg c)
    (hs : ∀ e ∈ c.log, e.isSkipped = false) :
    ∃ t0 ps, c.log.filterMap Entry.packet = t0 :: ps ∧ Within cfg.keepAlive ps ∧
      (∀ t, ps.head? = some t → t ≤ t0 + cfg.pingTimeout + cfg.keepAlive) ∧
      (c.phase = .connecting ∨ c.phase = .connected → ps = [] → c.now ≤ t0 + cfg.pingTimeout + cfg.keepAlive) := by
  obtain ⟨t0, ht⟩ := timed (configure_lt hcfg) h
  have ha := C80_alive hcfg h hs
  have hconn : c.phase = .connecting → c.now ≤ t0 + cfg.pingTimeout + cfg.keepAlive := fun hc =>
    Nat.le_trans (ht.phases.connack _ (ht.phases.connecting hc).1).1 (Nat.le_add_right _ _)
  rcases ht.shaped with ⟨h1, h2⟩ | ⟨a, rest, h1, h2, h3⟩
  · refine ⟨t0, [], h2, trivial, by simp, fun hc _ => ?_⟩
    rcases hc with hc | hc
    · exact hconn hc
    · obtain ⟨s, h4, _⟩ := ha.2 hc
      rw [h1] at h4; cases h4
  · rw [h1] at ha
    refine ⟨t0, rest, h2, ?_, ?_, fun hc hr => ?_⟩
    · cases rest with
      | nil => trivial
      | cons b r => exact ha.1.2.2
    · intro t hh
      cases rest with
      | nil => cases hh
      | cons b r =>
        cases hh
        have := ha.1.2.1
        omega
    · rcases hc with hc | hc
      · exact hconn hc
      · obtain ⟨s, h4, _, h5⟩ := ha.2 hc
        rw [hr] at h4
        have h6 : a = s := Option.some.inj h4
        omega

/-- A ping is not sent within the keep-alive interval of another or of the acceptance. -/
theorem C80_sparse {secs ms : Nat} {cfg : Config} (hcfg : configure secs ms = some cfg) {c : Chan} (h : Reachable cfg c) :
    Apart cfg.keepAlive (c.log.filterMap fun | .accepted t => some t | .ping t => some t | _ => none) := by
  obtain ⟨t0, ht⟩ := timed (configure_lt hcfg) h
  have : (fun | .accepted t => some t | .ping t => some t | _ => none : Entry → Option Nat) = Entry.pulse := by
    funext e; cases e <;> rfl
  rw [this]
  exact ht.pulsing.apart

/-- The channel does not stay open for longer than the ping timeout after a ping without a PINGRESP. -/
theorem C80_answered {secs ms : Nat} {cfg : Config} (hcfg : configure secs ms = some cfg) {c : Chan} (h : Reachable cfg c)
    (ho : c.phase ≠ .closed) {a b : List Entry} {p : Nat} (hp : c.log = a ++ .ping p :: b)
    (hb : ∀ e ∈ b, e.isPingresp = false) : c.now ≤ p + cfg.pingTimeout := by
  obtain ⟨t0, ht⟩ := timed (configure_lt hcfg) h
  exact (ht.answering.timers _ (ht.answering.unanswered ho a p b hp hb).2).1

/-- The channel does not wait for longer than the ping timeout for a CONNACK. -/
theorem C80_connack {secs ms : Nat} {cfg : Config} (hcfg : configure secs ms = some cfg) {c : Chan} (h : Reachable cfg c)
    (ho : c.phase = .connecting) : ∃ t0 rest, c.log = .connect t0 :: rest ∧ c.now ≤ t0 + cfg.pingTimeout := by
  obtain ⟨t0, ht⟩ := timed (configure_lt hcfg) h
  obtain ⟨rest, hr⟩ := ht.phases.head
  exact ⟨t0, rest, hr, (ht.phases.connack _ (ht.phases.connecting ho).1).1⟩

/-- A channel closed for a timeout was closed at the ping timeout after a ping, with no PINGRESP since; or at the ping timeout
after CONNECT, with the connection not accepted. It is closed once. -/
theorem C80_justified {secs ms : Nat} {cfg : Config} (hcfg : configure secs ms = some cfg) {c : Chan} (h : Reachable cfg c)
    {a b : List Entry} {t : Nat} {why : Reason} (hl : c.log = a ++ .shut t why :: b) :
    b = [] ∧ c.phase = .closed ∧
    (why = .pingTimeout →
      ∃ a1 p a2, a = a1 ++ .ping p :: a2 ∧ t = p + cfg.pingTimeout ∧ ∀ e ∈ a2, e.isPingresp = false) ∧
    (why = .connackTimeout →
      ∃ t0 rest, a = .connect t0 :: rest ∧ t = t0 + cfg.pingTimeout ∧ ∀ e ∈ a, e.isAccepted = false) := by
  obtain ⟨t0, ht⟩ := timed (configure_lt hcfg) h
  obtain ⟨h1, h2, h3, h4⟩ := ht.answering.shut a t why b hl
  refine ⟨h1, h2, h3, fun hw => ?_⟩
  obtain ⟨h5, h6⟩ := h4 hw
  obtain ⟨rest, hr⟩ := ht.phases.head
  rw [hl] at hr
  cases a with
  | nil => cases hr
  | cons x a =>
    rw [List.cons_append] at hr
    have := (List.cons.inj hr).1
    subst this
    exact ⟨t0, a, rfl, h5, h6⟩

/-! ### Examples -/

def exampleConfig : Config := { keepAlive := 4000000000, pingTimeout := 3000000000 }

example : configure 4 3000 = some exampleConfig := by decide

/-- A new connection. -/
def exampleStart : Chan := Chan.open exampleConfig 0 0 false [] 0

theorem exampleStart_reachable : Reachable exampleConfig exampleStart :=
  .opened 0 0 false [] 0 (by simp) (by simp) (by simp)

/-- CONNACK, a publish that is acknowledged, a ping that is answered and one that is not. -/
def exampleEvents : List Event :=
  [.tick 1000000000, .connack true, .tick 1000000000, .submit true, .send 0, .tick 500000000, .ack 0, .tick 500000000, .connackTimer,
   .tick 2000000000, .pingTask, .tick 1000000000, .pingTask, .sendPing, .tick 1000000000, .pingresp,
   .tick 2000000000, .pingTimer 9000000000, .tick 1000000000, .pingTask, .sendPing, .tick 3000000000, .pingTimer 13000000000]

example : (run exampleConfig exampleStart exampleEvents).map (·.log) =
    some [.connect 0, .accepted 1000000000, .sent 2000000000, .ping 6000000000, .pingresp 7000000000, .ping 10000000000,
      .shut 13000000000 .pingTimeout] := by decide +kernel

example : (run exampleConfig exampleStart [.tick 3000000000, .connackTimer]).map (·.log) =
    some [.connect 0, .shut 3000000000 .connackTimeout] := by decide +kernel

/-! ### What does not hold -/

/-- A CONNACK that comes late, and the next ping. -/
def late : Option Chan :=
  run exampleConfig exampleStart
    [.tick 2900000000, .connack true, .tick 100000000, .connackTimer, .tick 3900000000, .pingTask, .sendPing]

theorem late_isSome : late.isSome := by decide +kernel

/-- The server is told of a keep-alive interval of 4 s, and closes the connection if it has received nothing for 6 s. The client
sends CONNECT at 0 s, receives CONNACK at 2.9 s and sends its next packet, a ping, at 6.9 s. -/
theorem C80_violated_first :
    ∃ cfg c, configure 4 3000 = some cfg ∧ Reachable cfg c ∧ (∀ e ∈ c.log, e.isSkipped = false) ∧
      c.log.filterMap Entry.packet = [0, 6900000000] ∧ 2 * 6900000000 > 3 * cfg.keepAlive := by
  refine ⟨exampleConfig, _, by decide, run_reachable exampleStart_reachable (Option.some_get late_isSome).symm, ?_, ?_, ?_⟩
  all_goals decide +kernel

/-- With requests for all 65535 packet ids sent and not acknowledged no ping is sent, for any options: nothing is sent for
twice the keep-alive interval, and the connection is taken to be alive. -/
theorem C80_violated_full {secs ms : Nat} {cfg : Config} (hcfg : configure secs ms = some cfg) :
    ∃ c s, Reachable cfg c ∧ c.phase = .connected ∧ (c.log.filterMap Entry.sign).getLast? = some s ∧
      c.now = s + 2 * cfg.keepAlive := by
  have hlt := configure_lt hcfg
  have hpos := (configure_some hcfg).2
  obtain ⟨n, hn⟩ : ∃ n, n = 65535 := ⟨_, rfl⟩
  refine ⟨silent cfg n, 1, silent_reachable hn hpos hlt, rfl, ?_, by show _ + _ + _ = _; omega⟩
  show (List.filterMap _ ((([.connect 0, .accepted 1] : List Entry) ++ List.replicate n (.sent 1)) ++ [.skipped _])).getLast? = _
  rw [List.filterMap_append, List.filterMap_append, List.filterMap_replicate_of_some (f := Entry.sign) (a := .sent 1) (b := 1) rfl]
  have : [Entry.skipped (1 + cfg.keepAlive)].filterMap Entry.sign = [] := rfl
  rw [this, List.append_nil, List.getLast?_append, List.getLast?_replicate, if_neg (by omega)]
  rfl

/-- A server that sends a second CONNACK makes the client schedule a task that is scheduled. -/
theorem C80_violated_connack {secs ms : Nat} {cfg : Config} (hcfg : configure secs ms = some cfg) {c : Chan}
    (h : Reachable cfg c) (hc : c.phase = .connected) :
    Enabled c (.connack true) ∧ step cfg c (.connack true) = .error .scheduledTwice := by
  obtain ⟨t0, ht⟩ := timed (configure_lt hcfg) h
  have := ht.phases.connected hc
  exact ⟨by simp [Enabled, hc], by simp [step, Chan.connack, hc, this]⟩

end Mqtt.Props
