import Verif.Lemmas.Life5

/-!
C88. An MQTT 5 client that its users have released ends: it makes no further connection attempts, waits for the connection and the
handshake transformation that are under way, is then freed once, and is not used afterwards. Its reference count becomes 0 once, but
for a client whose last user releases it before they complete a handshake transformation: there a reference is acquired though there
was none.
-/
namespace Mqtt.Props
open Life5

/-- A client is used with websockets, released, and freed. -/
def websocketLife : List Event :=
  [.change true, .turn false, .run {}, .turn true, .run {}, .answer true, .turn false, .run {}, .opened false {}, .release, .turn false,
    .run {}, .turn true, .run {}, .closed {}, .turn true, .run {}]

example : (play true websocketLife).2 = [.attempt, .asked, .answered, .dialed, .requestFreed, .opened, .released, .zero, .closed,
    .destroyed] ∧ Plays true {} websocketLife := by decide +kernel

/-- A client whose first connection attempt fails is released while it waits to reconnect. -/
def failingLife : List Event :=
  [.change true, .turn false, .run {}, .turn true, .run {}, .failed {}, .release, .turn false, .run {}, .turn true, .run {}, .turn true,
    .run {}]

example : (play false failingLife).2 = [.attempt, .dialed, .failed, .released, .zero, .destroyed] ∧ Plays false {} failingLife := by
  decide +kernel

/-- Freed memory is not used, no reference is released that nobody has, and no assertion fails. -/
theorem C88_memory {ws : Bool} {c : Client} {log : List Entry} (h : Reachable ws c log) : Entry.bad ∉ log :=
  (Good.of h).bad

/-- The client is freed at most once, and nothing is seen of it afterwards. -/
theorem C88_once {ws : Bool} {c : Client} {before after : List Entry} (h : Reachable ws c (before ++ .destroyed :: after)) :
    after = [] ∧ Entry.destroyed ∉ before := by
  rcases (Good.of h).state with ⟨_, hd⟩ | ⟨_, l, hl, hd⟩
  · simp at hd
  · rcases List.eq_nil_or_concat after with ha | ⟨a, x, ha⟩
    · subst ha
      have := List.append_inj' hl rfl
      exact ⟨rfl, by rw [this.1]; exact hd⟩
    · exfalso
      subst ha
      have h1 : (before ++ .destroyed :: a) ++ [x] = l ++ [.destroyed] := by rw [← hl]; simp
      have := (List.append_inj' h1 rfl).1
      rw [← this] at hd
      simp at hd

/-- The client is freed only when its users have no reference, no connection and no handshake is under way, and no task waits. -/
theorem C88_early {ws : Bool} {c : Client} {log : List Entry} (h : Reachable ws c log) (hd : Entry.destroyed ∈ log) :
    Held log 0 ∧ attempting log = false ∧ handshaking log = false ∧
      c.running = [] ∧ c.asap = [] ∧ c.timed = false ∧ c.due = false := by
  obtain ⟨hs, _, ho⟩ := Good.of h
  rcases ho with ⟨_, hx⟩ | ⟨hi, l, hl, hn⟩
  · exact absurd hd hx
  · refine ⟨by rw [← hi.user]; exact hs.held, ?_, by rw [hs.handshaking, hi.request]; rfl, hi.running, hi.asap, hi.timed, hi.due⟩
    rw [hs.attempting, hi.phase]; rfl

/-- While a user has a reference, the client lives. -/
theorem C88_lives {ws : Bool} {c : Client} {log : List Entry} (h : Reachable ws c log) {n : Nat} (hh : Held log n) (hn : 0 < n) :
    Entry.destroyed ∉ log := by
  intro hd
  have := (C88_early h hd).1
  unfold Held at *
  omega

/-- When the users have no reference, and neither a task nor the service task waits, the client has ended, or it waits for its user to
complete a handshake transformation or for the socket layer to report that a connection is there, has failed or has ended. -/
theorem C88_ends {ws : Bool} {c : Client} {log : List Entry} (h : Reachable ws c log) (hh : Held log 0)
    (h1 : c.running = []) (h2 : c.asap = []) (h3 : c.timed = false) (h4 : c.due = false) :
    Entry.destroyed ∈ log ∨
      (attempting log = true ∧ (c.owed = true ∨ c.net = .dialing ∨ c.net = .spoiled ∨ c.net = .up ∧ c.phase = .closing)) := by
  obtain ⟨hs, _, ho⟩ := Good.of h
  rcases ho with ⟨hi, hx⟩ | ⟨_, l, hl, _⟩
  · right
    have hu : c.user = 0 := by have := hs.held; unfold Held at *; omega
    have ht : c.tasks = [] := by simp [Client.tasks, h1, h2]
    have hd := hi.leaving hu ht
    have hw := hi.service.wanted
    rw [h3, h4, hd] at hw
    have hone := hi.core.one
    rw [ht] at hone
    rw [hs.attempting]
    cases hp : c.phase with
    | stopped => simp [hp] at hw
    | pendingReconnect => simp [hp] at hw
    | live => simp [hp] at hw
    | closing => exact ⟨rfl, .inr (.inr (.inr ⟨hi.core.netUp.1 (.inr hp), rfl⟩))⟩
    | connecting =>
      refine ⟨rfl, ?_⟩
      cases hn : c.net with
      | none =>
        rw [hp, hn] at hone
        left
        cases ho : c.owed
        · rw [ho] at hone; cases hone
        · rfl
      | dialing => exact .inr (.inl rfl)
      | spoiled => exact .inr (.inr (.inl rfl))
      | up => exact absurd hn (hi.core.netConnecting hp)
  · exact .inl (by rw [hl]; simp)

/-- And the service task gets on with it: it shuts a connection down, and when none is under way, it frees the client the first or the
second time it is run. -/
theorem C88_progress {ws : Bool} {c : Client} {log : List Entry} (h : Reachable ws c log) (hh : Held log 0) (hn : Entry.destroyed ∉ log)
    (h1 : c.running = []) (h2 : c.asap = []) (h3 : c.due = true) (x y : Choice) :
    (c.phase = .live → (step ws c (.run x)).1.phase = .closing) ∧
    (attempting log = false → Entry.destroyed ∈ (step ws c (.run x)).2 ∨
      Entry.destroyed ∈ (step ws (step ws (step ws c (.run x)).1 (.turn true)).1 (.run y)).2) := by
  obtain ⟨hs, _, ho⟩ := Good.of h
  rcases ho with ⟨hi, _⟩ | ⟨_, l, hl, _⟩
  · have hu : c.user = 0 := by have := hs.held; unfold Held at *; omega
    have hd := hi.leaving hu (by simp [Client.tasks, h1, h2])
    have ht : c.timed = false := by
      cases hx : c.timed
      · rfl
      · exact absurd ⟨hx, h3⟩ hi.sched.notBoth
    have e : step ws c (.run x) = ({ c with due := false } : Client).service ws x := by
      show c.run ws x = _
      rw [run_nil h1 hi.alive, if_neg (by simp [h3])]
    constructor
    · intro hp
      rw [e]
      simp only [Client.service, hp, hd]
      rw [if_pos (by simp)]
      exact reevaluate_phase _ x
    · intro ha
      rw [hs.attempting] at ha
      cases hp : c.phase with
      | stopped => left; rw [e]; simp [Client.service, hp, hd]
      | pendingReconnect =>
        right
        rw [e]
        simp [Client.service, hp, hd, Client.reevaluate, Client.wants, ht, step, Client.run, h2, hi.alive]
      | connecting => simp [hp] at ha
      | live => simp [hp] at ha
      | closing => simp [hp] at ha
  · exact absurd (by rw [hl]; simp) hn

/-- A client that waits to reconnect ends the second time. -/
example : (play false (failingLife.take 10)).1.due = true ∧ (play false (failingLife.take 10)).1.phase = .pendingReconnect := by
  decide +kernel

/-- Once the users have no reference and the tasks have run, no connection attempt begins. -/
theorem C88_final {ws : Bool} {c d : Client} {log more : List Entry} (h : Reachable ws c log) (hh : Held log 0)
    (h1 : c.running = []) (h2 : c.asap = []) (hl : Later ws c more d) : Entry.attempt ∉ more := by
  refine (hl.final h fun hi => hi.leaving ?_ (by simp [Client.tasks, h1, h2])).1
  have := (Good.of h).seen.held
  unfold Held at *
  omega

/-- The request of a handshake is freed once, when the outcome of the handshake is known. -/
theorem C88_request {ws : Bool} {c : Client} {log : List Entry} (h : Reachable ws c log) :
    log.count .asked = log.count .requestFreed + (if handshaking log then 1 else 0) := by
  obtain ⟨hs, _, ho⟩ := Good.of h
  have hq : c.request ≤ 1 := by
    rcases ho with ⟨hi, _⟩ | ⟨hi, _⟩
    · rw [hi.core.request]; split <;> omega
    · rw [hi.request]; omega
  rw [hs.asked, hs.handshaking]
  by_cases h0 : 0 < c.request
  · rw [decide_eq_true h0, if_pos rfl]; omega
  · rw [decide_eq_false h0, if_neg (by simp)]; omega

/-- The reference count becomes 0 once, if websockets are not used. Missing: with websockets (`C88_violated`). -/
theorem C88_zero_partial {ws : Bool} {c : Client} {log : List Entry} (h : Reachable ws c log) (hq : Entry.asked ∉ log) :
    Entry.revived ∉ log ∧ log.count .zero ≤ 1 ∧ (Entry.destroyed ∈ log → log.count .zero = 1) := by
  have hr : Entry.revived ∉ log := by
    induction h with
    | init => simp
    | @step c log h e he ih =>
      have hq : Entry.asked ∉ log := fun hx => hq (List.mem_append.2 (.inl hx))
      intro hx
      rcases List.mem_append.1 hx with hx | hx
      · exact ih hq hx
      · exact hq (revived_asked h he hx)
  have := h.counted
  rw [List.count_eq_zero.2 hr] at this
  refine ⟨hr, ?_, fun hd => ?_⟩
  · rw [this]; split <;> omega
  · rcases (Good.of h).state with ⟨_, hx⟩ | ⟨hi, _⟩
    · exact absurd hd hx
    · rw [this, if_pos hi.refs]

/-- A reference is acquired though there is none only when the user completes a handshake transformation without a reference. -/
theorem C88_revived {ws : Bool} {c : Client} {log : List Entry} (h : Reachable ws c log) {e : Event} (he : Enabled ws c e)
    (hx : Entry.revived ∈ (step ws c e).2) : (∃ ok, e = .answer ok) ∧ Held log 0 := by
  obtain ⟨hs, _, ho⟩ := Good.of h
  rcases ho with ⟨hi, _⟩ | ⟨hi, _⟩
  · have h0 := (counted_step hi he).2 hx
    have hu : c.user = 0 := by have := hi.core.refs; omega
    refine ⟨?_, by rw [← hu]; exact hs.held⟩
    exact revived_answer hi he hx
  · rw [(hi.step he).2.1] at hx; simp at hx

/-- A client is released while the user has yet to complete the transformation: the client waits. -/
example : Plays true {} [.change true, .turn false, .run {}, .turn true, .run {}, .release, .turn false, .run {}] ∧
    (play true [.change true, .turn false, .run {}, .turn true, .run {}, .release, .turn false, .run {}]).1.owed = true ∧
    (play true [.change true, .turn false, .run {}, .turn true, .run {}, .release, .turn false, .run {}]).1.desired = .terminated := by
  decide +kernel

/-- The user has no reference when they complete the handshake transformation: `aws_mqtt5_client_acquire` (990) acquires a reference
of a count that is 0, and `s_on_mqtt5_client_zero_ref_count` is called twice. The client is freed nevertheless once. -/
theorem C88_violated : ∃ c log, Reachable true c log ∧ Entry.revived ∈ log ∧ log.count .zero = 2 ∧ log.count .destroyed = 1 := by
  refine ⟨_, _, plays_reachable (events := [.change true, .turn false, .run {}, .turn true, .run {}, .release, .turn false, .run {},
    .answer true, .turn false, .run {}, .turn false, .run {}, .turn true, .run {}]) ?_, ?_⟩ <;> decide +kernel

end Mqtt.Props
