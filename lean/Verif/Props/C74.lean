import Verif.Lemmas.Client5Expire
import Verif.Lemmas.Client5TimedRun
import Verif.Lemmas.KernelRfl
import Verif.Props.C29
import Verif.Props.C35

/-!
C74: operations of the MQTT 5 client that are not acknowledged time out, and when.
-/
namespace Mqtt.Props
open Mqtt.Client5 Mqtt.V5

/-! ## Not too early -/

/-- **C74, not too early.** An operation sent with a packet to be acknowledged that completes with a timeout was sent on
the present connection, and the ack timeout it was submitted with, or that of the configuration, has passed since. With no
ack timeout it does not time out while the clock is below its largest value. -/
theorem C74_early {cfg : Config} {late : Nat} {x : Clocked} {l l1 l2 : List Stamp} {m : Stamp} {u : Nat} {p : Outgoing}
    {a : Option Received} (h : Stamped cfg late x l) (hl : l = l1 ++ m :: l2)
    (hm : m.effect = .completed u p .timeout a) (hp : requiresAck p = true) :
    ∃ s b b', Asked l1 u s ∧ (∀ s', Asked l u s' → s' = s) ∧ sentAt u l1 = some (b, b') ∧
      (∀ d, timesOutAt cfg s b = some d → d ≤ m.stop) ∧
      (timesOutAt cfg s b = none → 18446744073709551615 ≤ m.stop) := by
  obtain ⟨s, b, b', h1, h2, h3⟩ := (stamped_ack h).fine l1 m l2 u p a hl hm hp
  refine ⟨s, b, b', h1, fun s' hs' => ?_, h2, fun d hd => ?_, fun hd => ?_⟩
  · refine asked_once h u s' s hs' ?_
    rw [hl]
    exact h1.mono
  · rw [dueFrom, hd, Option.getD_some] at h3
    exact h3
  · rw [dueFrom, hd, Option.getD_none] at h3
    exact h3

/-! ## Not too late -/

/-- What is in flight waits for its ack timeout, unless two operations in flight have had the same packet id. -/
theorem waits {cfg : Config} {late : Nat} {x : Clocked} {l : List Stamp} {u : Nat} {p : Outgoing}
    (h : Stamped cfg late x l) (hs : ¬Shares x.client.ops.log ∨ setUps x.client.ops.log ≤ 65534)
    (hf : (u, p) ∈ inFlight x.client.ops.log) :
    ∃ op ∈ x.client.ops.unacked, op.uid = u ∧ op.packet = p ∧ u ∈ x.client.ops.timeouts ∧ Indexed x.client.ops ∧
      ∃ s b b', Asked l u s ∧ sentAt u l = some (b, b') ∧ ∀ d, timesOutAt cfg s b' = some d → op.deadline ≤ d := by
  have hi := reachable_Inv (timed_reachable h.timed)
  have ha := stamped_ack h
  cases hl : live x.client.ops.log with
  | false => rw [inFlight, hi.track.grounded hl] at hf; cases hf
  | true =>
    rw [inFlight, hi.track.flying hl, List.mem_map] at hf
    obtain ⟨op, ho, hx⟩ := hf
    simp only [Prod.mk.injEq] at hx
    obtain ⟨rfl, rfl⟩ := hx
    have hw : (∀ op ∈ x.client.ops.unacked, op.uid ∈ x.client.ops.timeouts) ∧
        ∀ op ∈ x.client.ops.unacked, x.client.ops.table.get (packetId op.packet) = some op.uid := by
      rcases ha.whole with hw | hw
      · rcases hs with hs | hs
        · exact absurd hw.1 hs
        · have := hw.2; omega
      · exact hw hl
    refine ⟨op, ho, rfl, rfl, hw.1 op ho, ⟨hi.held.unackedOnce, hw.2⟩, ?_⟩
    obtain ⟨b, b', h1, _, _, h4⟩ := ha.sent op ho (hw.1 op ho)
    refine ⟨op.ackTimeoutSeconds, b, b', ha.asked op (by simp [OpState.held, ho]) ?_, h1, fun d hd => ?_⟩
    · have := hi.live.acked op ho
      cases hk : op.packet <;> rw [hk] at this <;> first | rfl | cases this
    · rw [dueFrom, hd, Option.getD_some] at h4
      exact h4

/-- **C74, not too late (partial).** While the client is connected and means to stay so, or is disconnecting, nothing
happens later than the ack timeout of an operation in flight (plus the lateness of the event loop): the operation is no
longer in flight then. (Missing: when two operations in flight have had the same packet id, see `C74_violated`; that takes
65535 operations set up for sending.) -/
theorem C74_late_partial {cfg : Config} {late t : Nat} {x : Clocked} {l : List Stamp} {u : Nat} {p : Outgoing}
    (h : Stamped cfg late x l) (hw : Watched x.client.ctl)
    (hs : ¬Shares x.client.ops.log ∨ setUps x.client.ops.log ≤ 65534) (hf : (u, p) ∈ inFlight x.client.ops.log)
    (ht : Starts late x t) :
    ∃ s b b', Asked l u s ∧ (∀ s', Asked l u s' → s' = s) ∧ sentAt u l = some (b, b') ∧
      ∀ d, timesOutAt cfg s b' = some d → t ≤ d + late := by
  obtain ⟨op, ho, rfl, rfl, hu, _, s, b, b', h1, h2, h3⟩ := waits h hs hf
  refine ⟨s, b, b', h1, fun s' hs' => asked_once h _ _ _ hs' h1, h2, fun d hd => ?_⟩
  obtain ⟨h4, h5⟩ := stamped_alarmed h hw op ho hu
  have h6 := h3 d hd
  have h7 := ht.2 (by omega)
  omega

/-- **C74, what happens then (partial).** When the service task of a connected client sees that the ack timeout of an
operation in flight has passed, then it completes the operation with a timeout, unless it closes the connection because
no PINGRESP arrived. (Missing: as above.) -/
theorem C74_expires_partial {cfg : Config} {late t : Nat} {x y : Clocked} {l : List Stamp} {env : Env} {u s b b' d : Nat}
    {p : Outgoing} (h : Stamped cfg late x l) (hup : Up x)
    (hs : ¬Shares x.client.ops.log ∨ setUps x.client.ops.log ≤ 65534) (hf : (u, p) ∈ inFlight x.client.ops.log)
    (ha : Asked l u s) (hb : sentAt u l = some (b, b')) (hd : timesOutAt cfg s b' = some d) (hn : d ≤ env.now)
    (hst : Timed.Step cfg late x t (.service env) y) :
    Closes x y ∨ ∃ new, y.client.ops.log = x.client.ops.log ++ new ∧ .completed u p .timeout none ∈ new := by
  obtain ⟨op, ho, rfl, rfl, hu, hix, s', b1, b1', h1, h2, h3⟩ := waits h hs hf
  have : s' = s := asked_once h _ _ _ h1 ha
  subst this
  rw [hb] at h2
  simp only [Option.some.injEq, Prod.mk.injEq] at h2
  obtain ⟨rfl, rfl⟩ := h2
  have h6 := h3 d hd
  rcases C35_closes h.timed hst hup with ⟨_, _, hc⟩ | ⟨hc, _⟩
  · exact .inl hc
  · obtain ⟨_, _, hstep, _⟩ := step_clocks hst
    obtain ⟨new, hl, hnew⟩ := service_expires hstep hup.1 hix hup.2 (by omega)
    exact .inr ⟨new, hl, hnew op ho hu (by omega)⟩

/-! ## The negation -/

/-- A subscribe and a publish with an ack timeout of 5 seconds are sent, the connection is lost. -/
def ackStart : List (Nat × TEvent) :=
  tconnect {} ++ [(1, .plain (.submit (subscribeTo [97]) 5 false)), (1, .plain (.submit (publishTo [97] 1) 5 false)),
    (1, .service), (1, .plain (.shutdown .success))]

/-- A connection without the old session, on which both are sent again. -/
def ackAgain : List (Nat × TEvent) :=
  [(1, .service), (1, .setup), (1, .service), (1, .plain (.writeComplete .success)), (1, .packet (.connack {})),
    (1, .service)]

/-- The state after the connection is lost; the old deadlines do not matter. -/
def ackState (n u d1 d2 : Nat) (log : List Effect) (events : List LEvent) : Client :=
  { idState n u log events with
    ops := { (idState n u log events).ops with
      unacked := [
        { uid := 1, packet := subscribeTo [97], ackTimeoutSeconds := 5, deadline := d1, size := 9,
          incomplete := true, unacked := true },
        { uid := 2, packet := .publish { packetId := 2, qos := 1, duplicate := true, topic := [97] },
          ackTimeoutSeconds := 5, deadline := d2, size := 6, incomplete := true, unacked := true }] } }

/-- The client without log, events and deadlines. -/
def forgetTimes (c : Client) : Client :=
  ⟨{ c.ops with log := [], unacked := c.ops.unacked.map fun op => { op with deadline := 0 } }, { c.ctl with events := [] }⟩

def forgetTimed : Option Clocked → Option Clocked := Option.map fun x => { x with client := forgetTimes x.client }

theorem forgetTimed_some {o : Option Clocked} {y : Clocked} (h : forgetTimed o = some y) :
    ∃ x, o = some x ∧ { x with client := forgetTimes x.client } = y := by
  cases o with
  | none => cases h
  | some x => exact ⟨x, rfl, Option.some.inj h⟩

theorem ackState_of_forget {c : Client} {n u : Nat} (h : forgetTimes c = ackState n u 0 0 [] []) :
    ∃ d1 d2, c = ackState n u d1 d2 c.ops.log c.ctl.events := by
  have hu : ∃ o1 o2, c.ops.unacked = [o1, o2] := by
    have hl := congrArg (fun c : Client => c.ops.unacked.length) h
    simp only [forgetTimes, ackState, List.length_map, List.length_cons, List.length_nil] at hl
    generalize c.ops.unacked = us at hl
    rcases us with _ | ⟨o1, _ | ⟨o2, _ | ⟨o3, us⟩⟩⟩
    · simp at hl
    · simp at hl
    · exact ⟨o1, o2, rfl⟩
    · simp at hl
  obtain ⟨o1, o2, hu⟩ := hu
  refine ⟨o1.deadline, o2.deadline, ?_⟩
  rcases c with ⟨⟨⟩, ⟨⟩⟩
  rcases o1 with ⟨⟩
  rcases o2 with ⟨⟩
  simp only at hu
  subst hu
  simp only [forgetTimes, ackState, idState, Client.mk.injEq, OpState.mk.injEq, Control.mk.injEq, List.map_cons,
    List.map_nil, List.cons.injEq, Op.mk.injEq] at h ⊢
  simp only [h, and_true]

def always : Clocked → Event → Clocked → Bool := fun _ _ _ => true

/-- A lost connection later the subscribe has used up one more packet id. -/
theorem ackRound (n u d1 d2 : Nat) (l : List Effect) (ev : List LEvent) :
    forgetTimed (trun {} 0 always ⟨ackState (n + 1) u d1 d2 l ev, 1, 0⟩
      (ackAgain ++ [(1, .plain (.shutdown .success))])) =
      some ⟨ackState (nextPacketId (n + 1)) (u + 1) 0 0 [] [], 1, 0⟩ := by kernel_rfl

/-- There are histories to that state. -/
def AckGets (n : Nat) : Prop := ∃ u d1 d2 l ev, Timed {} 0 ⟨ackState n u d1 d2 l ev, 1, 0⟩

theorem ackGets_of {n u : Nat} {x y : Clocked} {es : List (Nat × TEvent)} (hy : Timed {} 0 y)
    (hx : trun {} 0 always y es = some x)
    (hf : { x with client := forgetTimes x.client } = (⟨ackState n u 0 0 [] [], 1, 0⟩ : Clocked)) : AckGets n := by
  have ht := trun_timed hx hy
  rcases x with ⟨c, t, sch⟩
  simp only [Clocked.mk.injEq] at hf
  obtain ⟨hc, rfl, rfl⟩ := hf
  obtain ⟨d1, d2, hc⟩ := ackState_of_forget hc
  rw [hc] at ht
  exact ⟨_, _, _, _, _, ht⟩

theorem ackGets_next {n : Nat} (h : AckGets (n + 1)) : AckGets (nextPacketId (n + 1)) := by
  obtain ⟨u, d1, d2, l, ev, hr⟩ := h
  obtain ⟨x, hx, hf⟩ := forgetTimed_some (ackRound n u d1 d2 l ev)
  exact ackGets_of hr hx hf

theorem ackGets_start : AckGets 3 := by
  have h : forgetTimed (trun {} 0 always ⟨Client.new {}, 1, 0⟩ ackStart) = some ⟨ackState 3 3 0 0 [] [], 1, 0⟩ := by
    kernel_rfl
  obtain ⟨x, hx, hf⟩ := forgetTimed_some h
  exact ackGets_of (.new 1 (by omega)) hx hf

theorem ackGets_up (k : Nat) (hk : k ≤ 65532) : AckGets (k + 3) := by
  induction k with
  | zero => exact ackGets_start
  | succ k ih =>
    have h := ackGets_next (ih (by omega))
    rwa [show nextPacketId (k + 2 + 1) = k + 1 + 3 by unfold nextPacketId; rw [if_neg (by omega)]] at h

/-- The publish. -/
def ackPublish : Outgoing := .publish { packetId := 2, qos := 1, duplicate := true, topic := [97] }

/-- What is known of the state after both have been sent again, with the same packet id. -/
def summary (x : Clocked) : State × Desired × Nat × Nat × Bool × Nat × List Nat × Option Nat × List (Nat × Nat × Outgoing) :=
  (x.client.ctl.state, x.client.ctl.desired, x.client.ctl.pingTimeout, x.client.ctl.nextPing,
    x.client.ops.pendingWrite, x.clock, x.client.ops.timeouts, x.client.ops.table.get 2,
    x.client.ops.unacked.map fun op => (op.uid, op.ackTimeoutSeconds, op.packet))

theorem ackLast (u d1 d2 : Nat) (l : List Effect) (ev : List LEvent) :
    (trun {} 0 always ⟨ackState 2 u d1 d2 l ev, 1, 0⟩ ackAgain).map summary =
    some (.connected, .connected, 0, 18446744073709551615, true, 1, [1, 2], some 2,
      [(1, 5, withPacketId (subscribeTo [97]) 2), (2, 5, ackPublish)]) := by kernel_rfl

theorem trun_append {cfg : Config} {late : Nat} {ok : Clocked → Event → Clocked → Bool} {x z : Clocked}
    {es fs : List (Nat × TEvent)} (h : trun cfg late ok x (es ++ fs) = some z) :
    ∃ y, trun cfg late ok x es = some y ∧ trun cfg late ok y fs = some z := by
  induction es generalizing x with
  | nil => exact ⟨x, rfl, h⟩
  | cons a es ih =>
    rw [List.cons_append, trun] at h
    rw [trun]
    split at h
    · cases h
    · rename_i y hy
      split at h
      · rename_i hok
        obtain ⟨w, h1, h2⟩ := ih h
        exact ⟨w, by rw [if_pos hok]; exact h1, h2⟩
      · cases h

/-- The service task was scheduled at the end. -/
theorem trun_scheduled {cfg : Config} {late t : Nat} {ok : Clocked → Event → Clocked → Bool} {x z : Clocked}
    {es : List (Nat × TEvent)} (h : trun cfg late ok x (es ++ [(t, .service)]) = some z)
    (hz : z.client.ctl.state ≠ .terminated) : z.scheduled = reevaluate 0 (z.client.nextService cfg {} t) := by
  obtain ⟨y, _, h2⟩ := trun_append h
  rw [trun] at h2
  split at h2
  · cases h2
  · rename_i w hw
    split at h2
    · rw [trun] at h2
      cases h2
      unfold tstep at hw
      split at hw
      · split at hw
        · cases hw
        · cases hw
          exact if_pos (by simp only [reevaluates, TEvent.at, bne_iff_ne, ne_eq]; exact hz)
      · cases hw
    · cases h2

/-- Everything that is stamped has happened. -/
theorem stamps_past {cfg : Config} {late : Nat} {x : Clocked} {l : List Stamp} (h : Stamped cfg late x l) :
    ∀ m ∈ l, m.stop ≤ x.clock := by
  induction h with
  | new t ht => simp
  | @step x y t e l new hx hs hn ih =>
    intro m hm
    have hc := step_clocks hs
    rcases List.mem_append.1 hm with hm | hm
    · have := ih m hm; omega
    · obtain ⟨f, _, rfl⟩ := List.mem_map.1 hm
      exact Nat.le_refl _

theorem sentAt_mem {u b b' : Nat} {l : List Stamp} (h : sentAt u l = some (b, b')) : ∃ m ∈ l, m.stop = b' := by
  have key : ∀ r, l.foldl (sentOne u) r = some (b, b') → r = some (b, b') ∨ ∃ m ∈ l, m.stop = b' := by
    clear h
    induction l with
    | nil => exact fun r hr => .inl hr
    | cons m l ih =>
      intro r hr
      rw [List.foldl_cons] at hr
      rcases ih _ hr with h1 | ⟨m', h1, h2⟩
      · unfold sentOne at h1
        split at h1
        · split at h1
          · simp only [Option.some.injEq, Prod.mk.injEq] at h1
            exact .inr ⟨m, by simp, h1.2⟩
          · exact .inl h1
        · cases h1
        · exact .inl h1
      · exact .inr ⟨m', by simp [h1], h2⟩
  rcases key none h with h1 | h1
  · cases h1
  · exact h1

/-- Two operations that share a packet id, both overdue: the first times out, the second is taken from the heap only. -/
theorem shared_service {c : Client} {d : Nat} {o1 o2 : Op} (hs : c.ctl.state = .connected)
    (hd : c.ctl.desired = .connected) (hp : c.ctl.pingTimeout = 0) (hn : d < c.ctl.nextPing)
    (hw : c.ops.pendingWrite = true) (ht : c.ops.timeouts = [1, 2]) (hu : c.ops.unacked = [o1, o2]) (h1 : o1.uid = 1)
    (h2 : o2.uid = 2) (hp1 : packetId o1.packet = 2) (hp2 : packetId o2.packet = 2) (hd1 : o1.deadline = d)
    (hd2 : o2.deadline = d) (htab : c.ops.table.get 2 = some 2) :
    ∃ c', step {} c (.service (steady d)) = .ok c' ∧ c'.ctl = c.ctl ∧ c'.ops.unacked = [o2] ∧ c'.ops.timeouts = [] ∧
      c'.ops.pendingWrite = true ∧ c'.ops.log = c.ops.log ++ [.completed 1 o1.packet .timeout none] := by
  have hdl1 : deadlineOf [o1, o2] 1 = d := by simp [deadlineOf, h1, hd1]
  have hdl2 : deadlineOf [o1, o2] 2 = d := by simp [deadlineOf, h1, h2, hd2]
  have he : earliest [o1, o2] [1, 2] = some 1 := by
    simp [earliest, hdl1, hdl2]
  obtain ⟨c1, hck, k1, k2, k3, k4, k5⟩ : ∃ c1, c.checkTimeouts d = .ok c1 ∧ c1.ctl = c.ctl ∧ c1.ops.unacked = [o2] ∧
      c1.ops.timeouts = [] ∧ c1.ops.pendingWrite = true ∧
      c1.ops.log = c.ops.log ++ [.completed 1 o1.packet .timeout none] := by
    refine ⟨{ c with ops := { (({ c.ops with timeouts := [2], unacked := [o2], table := c.ops.table.del 2 } :
      OpState).complete o1 .timeout none) with timeouts := [] } }, ?_, rfl, rfl, rfl, hw, ?_⟩
    · unfold Client.checkTimeouts
      rw [ht]
      simp only [List.length_cons, List.length_nil]
      rw [Client5.checkTimeouts, hu, ht, he]
      simp only [List.find?_cons, h1, beq_self_eq_true, hd1, gt_iff_lt, Nat.lt_irrefl, if_false, hp1, htab]
      simp only [OpState.resolve, takeUid, h1, if_true]
      rw [Client5.checkTimeouts]
      simp [OpState.complete, earliest, h1, h2, hd2, hp2]
    · simp only [OpState.complete, h1]
  refine ⟨c1, ?_, k1, k2, k3, k4, k5⟩
  change c.service {} (steady d) = _
  unfold Client.service
  rw [hs]
  simp only
  unfold Client.serviceConnected
  rw [if_neg (by simp [hd]), if_neg (by simp [hp])]
  rw [if_neg (by simp only [steady]; omega)]
  simp only [steady]
  rw [hck]
  simp only
  rw [Client.serviceOps, if_pos (by simp [Client.serviceTime, k4])]
  rfl

/-- When the service task of a client with a pending write is scheduled. -/
theorem idle_next {c : Client} {now : Nat} (hs : c.ctl.state = .connected) (hd : c.ctl.desired = .connected)
    (hp : c.ctl.pingTimeout = 0) (hw : c.ops.pendingWrite = true) :
    reevaluate 0 (c.nextService {} {} now) = minNonZero c.ctl.nextPing c.ackDue := by
  rw [reevaluate_eq]
  unfold Client.nextService
  rw [hs]
  unfold Client.connectedTime
  have h2 : c.serviceTime {} ({} : Waits).throughput ({} : Waits).publish now = none := by
    simp [Client.serviceTime, hw]
  simp only [hp, ne_eq, not_true, if_false, h2, hd, Option.getD_none]
  generalize minNonZero c.ctl.nextPing c.ackDue = m
  simp [minNonZero]

/-- **C74 does not hold** when two operations in flight have the same packet id. A subscribe and a publish with an ack
timeout of 5 seconds are sent on one connection after another, without any acknowledgement, until the counter for packet
ids has come round and both have the packet id 2. On the last connection both are sent at time 1. The subscribe times out 5
seconds later, the publish never does: it is still in flight when 500 years have passed. -/
theorem C74_violated : ∃ (x : Clocked) (l : List Stamp), Stamped {} 0 x l ∧ Up x ∧
    (2, ackPublish) ∈ inFlight x.client.ops.log ∧ Asked l 2 5 ∧ (∃ b, sentAt 2 l = some (b, 1)) ∧
    timesOutAt {} 5 1 = some 5000000001 ∧ Starts 0 x (500 * 365 * 86400 * 1000000000) := by
  have h1 : AckGets 1 := ackGets_next (n := 65534) (ackGets_up 65532 (by omega))
  obtain ⟨u, d1, d2, log, ev, hr⟩ := ackGets_next (n := 0) h1
  have hl := ackLast u d1 d2 log ev
  cases hx : trun {} 0 always ⟨ackState 2 u d1 d2 log ev, 1, 0⟩ ackAgain with
  | none => rw [show nextPacketId (0 + 1) = 2 from rfl] at hr; rw [hx] at hl; cases hl
  | some x =>
    rw [show nextPacketId (0 + 1) = 2 from rfl] at hr
    rw [hx] at hl
    simp only [Option.map_some, Option.some.injEq, summary, Prod.mk.injEq] at hl
    obtain ⟨k1, k2, k3, k4, k5, k6, k7, k8, k9⟩ := hl
    have hsch := trun_scheduled (es := ackAgain.take 5) hx (by rw [k1]; decide)
    obtain ⟨l, hst⟩ := (trun_timed hx hr).stamped
    obtain ⟨o1, o2, hu⟩ : ∃ o1 o2, x.client.ops.unacked = [o1, o2] := by
      have := congrArg List.length k9
      simp only [List.length_map, List.length_cons, List.length_nil] at this
      generalize x.client.ops.unacked = us at this
      rcases us with _ | ⟨o1, _ | ⟨o2, _ | ⟨o3, us⟩⟩⟩
      · simp at this
      · simp at this
      · exact ⟨o1, o2, rfl⟩
      · simp at this
    rw [hu] at k9
    simp only [List.map_cons, List.map_nil, List.cons.injEq, Prod.mk.injEq, and_true] at k9
    obtain ⟨⟨u1, s1, p1⟩, u2, s2, p2⟩ := k9
    have ha := stamped_ack hst
    have hi := reachable_Inv (timed_reachable hst.timed)
    have hdl : ∀ o ∈ x.client.ops.unacked, o.uid ∈ x.client.ops.timeouts → o.ackTimeoutSeconds = 5 →
        o.deadline = 5000000001 ∧ ∃ b, sentAt o.uid l = some (b, 1) := by
      intro o ho ht h5
      obtain ⟨b, b', g1, g2, g3, g4⟩ := ha.sent o ho ht
      obtain ⟨m, hm, hm'⟩ := sentAt_mem g1
      have g5 := stamps_past hst m hm
      rw [h5] at g3 g4
      have key : ∀ t, dueFrom {} 5 t = t + 5000000000 := by
        intro t
        rw [dueFrom_eq]
        simp
      rw [key] at g3 g4
      have : b' = 1 := by omega
      subst this
      exact ⟨by omega, b, g1⟩
    have hd1 := hdl o1 (by simp [hu]) (by rw [k7, u1]; simp) s1
    have hd2 := hdl o2 (by simp [hu]) (by rw [k7, u2]; simp) s2
    obtain ⟨c', hstep, m1, m2, m3, m4, m5⟩ := shared_service k1 k2 k3 (by rw [k4]; omega) k5 k7 hu u1 u2
      (by rw [p1]; rfl) (by rw [p2]; rfl) hd1.1 hd2.1 k8
    have hack : x.client.ackDue = 5000000001 := by
      have hdl1 : deadlineOf [o1, o2] 1 = 5000000001 := by simp [deadlineOf, u1, hd1.1]
      have hdl2 : deadlineOf [o1, o2] 2 = 5000000001 := by simp [deadlineOf, u1, u2, hd2.1]
      unfold Client.ackDue
      rw [k7, hu]
      simp [earliest, hdl1, hdl2]
    rw [idle_next k1 k2 k3 k5, k4, hack] at hsch
    have hmk := Timed.Step.mk (cfg := {}) (late := 0) (x := x) (t := 5000000001) (t' := 5000000001) (now := 5000000001) {}
      ⟨by rw [k6]; omega, fun _ => by rw [hsch, minNonZero, if_neg (by omega), if_neg (by omega)]; omega⟩
      (by simp [Enabled, k1]) hstep ⟨⟨Nat.le_refl _, Nat.le_refl _⟩, ⟨Nat.le_refl _, Nat.le_refl _⟩,
      ⟨Nat.le_refl _, Nat.le_refl _⟩, fun _ => ⟨Nat.le_refl _, Nat.le_refl _⟩⟩ (Nat.le_refl _) (Nat.le_refl _)
    have hack' : c'.ackDue = 0 := by unfold Client.ackDue; rw [m3]; rfl
    rw [if_pos (by simp [reevaluates, m1, k1]), idle_next (by rw [m1]; exact k1) (by rw [m1]; exact k2)
      (by rw [m1]; exact k3) m4, hack', m1, k4] at hmk
    have hst' := Stamped.step hst hmk m5
    have hi' := reachable_Inv (timed_reachable hst'.timed)
    refine ⟨_, _, hst', ⟨by simp only [m1, k1], by simp only [m1, k2]⟩, ?_, ?_, ?_, ?_, ?_⟩
    · rw [inFlight, hi'.track.flying (hi'.live.up (by simp only [m1, k1]))]
      simp only [m2, List.map_cons, List.map_nil, u2, p2, List.mem_singleton]
    · have := ha.asked o2 (by simp [OpState.held, hu]) (by rw [p2]; rfl)
      rw [u2, s2] at this
      exact this.mono
    · obtain ⟨b, hb⟩ := hd2.2
      rw [u2] at hb
      refine ⟨b, ?_⟩
      rw [sentAt_append, hb]
      rfl
    · simp [timesOutAt]
    · refine ⟨by simp, fun _ => ?_⟩
      change _ ≤ minNonZero 18446744073709551615 0 + 0
      rw [minNonZero, if_neg (by omega), if_pos rfl]
      omega

/-! ## Examples -/

/-- Not vacuous: a publish is in flight until its ack timeout of 5 seconds, when it completes with a timeout. -/
example : (trun {} 0 always ⟨Client.new {}, 1, 0⟩ (tconnect {} ++ [(7, .plain (.submit (publishTo [97] 1) 5 false)),
    (7, .service), (8, .plain (.writeComplete .success))])).any (fun x =>
      decide ((inFlight x.client.ops.log).map (·.1) = [1]) && decide (x.scheduled = 5000000007) &&
      (tstep {} 0 x 5000000007 .service).any fun y => decide (inFlight y.client.ops.log = []) &&
        decide (y.client.ops.log.getLast? = some (.completed 1 (withPacketId (publishTo [97] 1) 1) .timeout none))) = true := by
  decide +kernel

/-- The same with the ack timeout of the configuration. -/
example : (trun { ackTimeoutSeconds := 2 } 0 always ⟨Client.new { ackTimeoutSeconds := 2 }, 1, 0⟩ (tconnect {} ++
    [(7, .plain (.submit (publishTo [97] 1) 0 false)), (7, .service)])).any (fun x =>
      decide ((inFlight x.client.ops.log).map (·.1) = [1]) && decide (x.scheduled = 2000000007)) = true := by
  decide +kernel

end Mqtt.Props
