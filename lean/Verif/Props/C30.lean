import Verif.Lemmas.Client5Faults

/-!
C30: the receive maximum of the server.
-/
namespace Mqtt.Props
open Mqtt.Client5 Mqtt.V5

/-- **C30, partial**: as long as every PUBACK was for a publish in the window, the QoS 1 publishes sent on the
present connection and not yet acknowledged by a PUBACK are never more than the receive maximum (missing: a
server that sends other PUBACKs, `C30_violated_window`). -/
theorem C30_partial {cfg : Config} {c : Client} (h : Reachable cfg c) (hl : live c.ops.log = true)
    (hh : (window c.ops.log).honest = true) :
    (window c.ops.log).open_.length ≤ (window c.ops.log).maximum := by
  have := (reachable_window h).2.exact hl hh
  omega

/-- **C30, partial**: whatever the server sends, there are never more QoS 1 publishes sent on a connection than its
receive maximum and one for each PUBACK received. -/
theorem C30_bound_partial {cfg : Config} {c : Client} (h : Reachable cfg c) (hl : live c.ops.log = true) :
    (window c.ops.log).sent ≤ (window c.ops.log).maximum + (window c.ops.log).acks := by
  have := (reachable_window h).2.bound hl
  omega

/-- **C30, partial**: flow control does not abort on a connection on which no operation fails the check against the
negotiated settings (missing: the connections of `C30_violated_abort`). -/
theorem C30_flow_partial {cfg : Config} {c : Client} (h : Reachable cfg c) (env : Env) (he : Enabled c (.service env))
    (hr : refused c.ops.log = false) (hp : c.invalid cfg .pingreq = none)
    (hq : ∀ op ∈ c.ops.queued, c.invalid cfg op.packet = none) :
    ∃ c', Client5.step cfg c (.service env) = .ok c' := by
  cases hs : Client5.step cfg c (.service env) with
  | ok c' => exact ⟨c', rfl⟩
  | error f =>
    cases step_fault h he hs with
    | flow env hst hc =>
      rcases hc with hc | hc | ⟨op, ho, hx⟩
      · rw [hr] at hc; cases hc
      · exact absurd hp hc
      · exact absurd (hq op ho) hx

/-! ### The negations -/

/-- One publish fills the window; the next operation fails the check, the one after it is a QoS 1 publish. -/
def overdrawn : List Event :=
  connectWith { receiveMaximum := some 1, retainAvailable := some false } ++
    [.submit (publishTo [97] 1) 0 false, .service {}, .writeComplete .success,
     .submit (.publish { topic := [98], retain := true }) 0 false, .submit (publishTo [99] 1) 0 false,
     .service {}]

/-- **C30 does not hold**: a history of legal events ends in the fatal assert of flow control (3657). -/
theorem C30_violated_abort : ∃ cfg c env, Reachable cfg c ∧ Enabled c (.service env) ∧
    Client5.step cfg c (.service env) = .error .abort := by
  have h : (run {} (Client.new {}) overdrawn.dropLast).test
      (fun c => match run {} c [.service {}] with | .fault .abort => true | _ => false) = true := by decide +kernel
  obtain ⟨c, hr, hc⟩ := run_test h
  cases hx : run {} c [.service {}] with
  | fault f =>
    rw [hx] at hc
    cases f with
    | abort =>
      simp only [run] at hx
      split at hx
      · rename_i he
        split at hx
        · rename_i f hs
          cases hx
          exact ⟨{}, c, {}, hr, he, hs⟩
        · cases hx
      · cases hx
    | ub => cases hc
  | ok c => rw [hx] at hc; cases hc
  | impossible => rw [hx] at hc; cases hc

/-- **C30 does not hold** if the server sends a PUBACK for a packet id that is not in flight: it makes room for one
more publish than the receive maximum allows. -/
theorem C30_violated_window : ∃ cfg c, Reachable cfg c ∧ live c.ops.log = true ∧
    (window c.ops.log).open_.length > (window c.ops.log).maximum := by
  have h : (run {} (Client.new {}) (connectWith { receiveMaximum := some 1 } ++
      [.submit (publishTo [97] 1) 0 false, .service {}, .writeComplete .success,
       .packet (.puback { packetId := 7 }) false 1, .submit (publishTo [98] 1) 0 false, .service {}])).test
      (fun c => live c.ops.log && decide ((window c.ops.log).open_.length > (window c.ops.log).maximum)) = true := by
    decide +kernel
  obtain ⟨c, hr, hc⟩ := run_test h
  simp only [Bool.and_eq_true, decide_eq_true_eq] at hc
  exact ⟨{}, c, hr, hc⟩

/-- Not vacuous: a window of 2 is full, a third publish waits; a PUBACK lets it out. -/
example : (run {} (Client.new {}) (connectWith { receiveMaximum := some 2 } ++
    [.submit (publishTo [97] 1) 0 false, .submit (publishTo [98] 1) 0 false, .submit (publishTo [99] 1) 0 false,
     .service {}])).test
    (fun c => live c.ops.log && (window c.ops.log).honest && decide ((window c.ops.log).open_ = [2, 1]) &&
      decide (c.ops.queued.length = 1) && !refused c.ops.log) = true := by decide +kernel

example : (run {} (Client.new {}) (connectWith { receiveMaximum := some 2 } ++
    [.submit (publishTo [97] 1) 0 false, .submit (publishTo [98] 1) 0 false, .submit (publishTo [99] 1) 0 false,
     .service {}, .writeComplete .success, .packet (.puback { packetId := 1 }) false 1, .service {}])).test
    (fun c => live c.ops.log && (window c.ops.log).honest && decide ((window c.ops.log).open_ = [3, 2]) &&
      decide (c.ops.queued.length = 0)) = true := by decide +kernel

end Mqtt.Props
