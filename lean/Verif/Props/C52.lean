import Verif.Lemmas.Client311Link

/-!
C52: 3.1.1 client: nothing is accepted from the server before CONNACK.

Violated: `s_validate_received_packet_type` looks for the state CONNECTING, but on a reconnect the state is RECONNECTING;
and the handler of PINGRESP does not call it.
-/
namespace Mqtt.Props
open Mqtt.Client311

variable {allowed : Conn → Event → Prop} {c : Conn}

/-- A packet other than CONNACK and PINGRESP on a connection that `connect` is establishing closes it and does nothing
else. -/
theorem C52_partial (h : Client311.Reachable allowed c) (hst : c.state = .connecting) {p : Packet}
    (he : Client311.Enabled c (.packet p) = true) (h1 : p ≠ .pingresp) (h2 : ∀ a, p ≠ .connack a) :
    ∃ n, c.chan = some n ∧
      Client311.step c (.packet p) = .ok { c with closing := true, log := c.log ++ [.rejected n] } := by
  simp only [Enabled, decide_eq_true_eq] at he
  cases hn : c.chan with
  | none => have := (h.inv.1.noChan hn).1; rw [he.2] at this; cases this
  | some n =>
    refine ⟨n, rfl, ?_⟩
    simp only [Client311.step, hn, Conn.receive]
    cases p with
    | pingresp => exact absurd rfl h1
    | connack a => exact absurd rfl (h2 a)
    | _ => simp [hst, hn, Conn.reject]

/-- In a history, a packet other than CONNACK and PINGRESP is acted upon only after a CONNACK that accepts has been
processed since the last connect; on this channel or on one before the connection was interrupted. -/
theorem C52_partial_history (h : Client311.Reachable allowed c) {pre post : List Trace} {n : Nat} {p : Packet}
    (e : c.log = pre ++ .processed n p :: post) (h1 : p ≠ .pingresp) (h2 : ∀ a, p ≠ .connack a) :
    ∃ pre' m post', pre = pre' ++ .processed m (.connack true) :: post' ∧ .connecting ∉ post' := h.packets e h1 h2

/-- A PUBLISH before the CONNACK of a reconnect is acted upon and acknowledged. -/
theorem C52_violated : ∃ c c' n, Client311.Reachable (fun _ _ => True) c ∧ c.chan = some n ∧
    (∀ p, .processed n p ∉ c.log) ∧ Client311.Enabled c (.packet (.publish 1 7)) = true ∧
    Client311.step c (.packet (.publish 1 7)) = .ok c' ∧
    c'.log = c.log ++ [.processed n (.publish 1 7), .replied 7] := by
  refine ⟨after [.connect false, .advance, .launch true, .setup .opened, .packet (.connack true), .close, .shutdown,
      .advance, .advance, .attempt true, .setup .opened],
    after [.connect false, .advance, .launch true, .setup .opened, .packet (.connack true), .close, .shutdown,
      .advance, .advance, .attempt true, .setup .opened, .packet (.publish 1 7)], 1, reachable_after _, ?_, ?_, ?_, rfl, ?_⟩
  · decide +kernel
  · intro p hp
    have : (after [.connect false, .advance, .launch true, .setup .opened, .packet (.connack true), .close, .shutdown,
      .advance, .advance, .attempt true, .setup .opened]).log.all (fun t => match t with
        | .processed n _ => n != 1
        | _ => true) = true := by decide +kernel
    have := List.all_eq_true.1 this _ hp
    simp at this
  · decide +kernel
  · decide +kernel

/-- This is so on every reconnect: each PUBLISH that comes before CONNACK is acted upon, and does not close the connection. -/
theorem C52_reconnect_violated (h : Client311.Reachable allowed c) (hst : c.state = .reconnecting) {qos id : Nat}
    (he : Client311.Enabled c (.packet (.publish qos id)) = true) :
    ∃ n c', c.chan = some n ∧ Client311.step c (.packet (.publish qos id)) = .ok c' ∧ c'.closing = c.closing ∧
      c'.log = c.log ++ .processed n (.publish qos id) :: if qos ≠ 0 ∧ id ≠ 0 then [.replied id] else [] := by
  simp only [Enabled, decide_eq_true_eq] at he
  cases hn : c.chan with
  | none => have := (h.inv.1.noChan hn).1; rw [he.2] at this; cases this
  | some n =>
    refine ⟨n, _, rfl, by simp only [Client311.step, hn, Conn.receive, hst]; rfl, ?_, ?_⟩
    · split <;> rfl
    · split <;> simp [Conn.tell]

/-- So is every PINGRESP, whatever the state. -/
theorem C52_pingresp_violated (h : Client311.Reachable allowed c) (he : Client311.Enabled c (.packet .pingresp) = true) :
    ∃ n, c.chan = some n ∧
      Client311.step c (.packet .pingresp) = .ok { c with log := c.log ++ [.processed n .pingresp] } := by
  simp only [Enabled, decide_eq_true_eq] at he
  cases hn : c.chan with
  | none => have := (h.inv.1.noChan hn).1; rw [he.2] at this; cases this
  | some n => exact ⟨n, rfl, by simp only [Client311.step, hn, Conn.receive, Conn.tell]⟩

example : (after [.connect false, .advance, .launch true, .setup .opened, .packet (.connack true), .close, .shutdown, .advance,
      .advance, .attempt true, .setup .opened]).state = .reconnecting ∧
    Client311.Enabled (after [.connect false, .advance, .launch true, .setup .opened, .packet (.connack true), .close,
      .shutdown, .advance, .advance, .attempt true, .setup .opened]) (.packet (.publish 1 7)) = true := by
  decide +kernel

/-- A PINGRESP before CONNACK is accepted. -/
theorem C52_violated_pingresp : ∃ c c' n, Client311.Reachable (fun _ _ => True) c ∧ c.state = .connecting ∧
    Client311.Enabled c (.packet .pingresp) = true ∧ Client311.step c (.packet .pingresp) = .ok c' ∧
    c'.log = c.log ++ [.processed n .pingresp] ∧ c'.closing = false := by
  refine ⟨after [.connect false, .advance, .launch true, .setup .opened],
    after [.connect false, .advance, .launch true, .setup .opened, .packet .pingresp], 0, reachable_after _, ?_, ?_, rfl,
    ?_, ?_⟩
  all_goals decide +kernel

example : (after [.connect false, .advance, .launch true, .setup .opened]).state = .connecting ∧
    Client311.Enabled (after [.connect false, .advance, .launch true, .setup .opened]) (.packet (.publish 1 7)) = true := by
  decide +kernel

example : ∃ pre post, (after [.connect false, .advance, .launch true, .setup .opened, .packet (.connack true),
    .packet (.publish 1 7)]).log = pre ++ .processed 0 (.publish 1 7) :: post :=
  ⟨[.connecting, .opened 0, .processed 0 (.connack true), .connectionComplete true], [.replied 7], by decide +kernel⟩

end Mqtt.Props
