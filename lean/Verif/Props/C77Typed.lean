import Verif.Props.C77Inputs
import Verif.Lemmas.Client5Tame

/-!
C77 with hypotheses on the calls of the user alone.
-/
namespace Mqtt.Props

open Mqtt.V5 Mqtt.Spec Mqtt.Spec5 Mqtt.Client5

/-- What the C types allow the user to hand to a client: numbers in a PUBLISH are in the ranges of their types, and a
DISCONNECT is one that `aws_mqtt5_packet_disconnect_storage_init` and validation accepted, made of options whose session
expiry is a `uint32_t`. Nothing is said of what the server sends. -/
def ByTypes : Event → Prop
  | .submit (.publish v) _ _ => PublishTypes v
  | .setDesired _ (some v) => ∃ o, newDisconnect o = some v ∧ OptLt 4294967296 o.sessionExpiry
  | _ => True

theorem byTypes_hands {e : Event} (h : ByTypes e) : Hands DisconnectFits PublishTypes e := by
  constructor
  · rintro d v rfl
    obtain ⟨o, h1, h2⟩ := h
    exact C56_disconnect_fits o v h1 h2
  · rintro v t x rfl
    have h : PublishTypes v := h
    exact ⟨h, h.messageExpiry, h.topicAlias⟩

/-- Whatever the server sends, a client used so is given numbers in the ranges of their types. -/
theorem C77_given {cfg : Client5.Config} {c : Client} (hr : ReachableBy ByTypes cfg c) (hc : ConnectTypes cfg.connect)
    (ha : OptLt 65536 cfg.inboundAliases) : Typed cfg c.ops.log := by
  have h := reachable_tame (D := DisconnectFits) (R := fun v => v.packetId < 65536) (S := PublishTypes) hr
    (fun r v hv => C56_disconnect_fits _ v hv (by simp [OptLt])) (fun _ => id) fun e => byTypes_hands
  exact ⟨hc, ha, h.submit, h.deliver, h.start⟩

/-- **C77, calls**: the server reads all packets begun on this connection, in order and with the topics the user gave. -/
theorem C77_calls {cfg : Client5.Config} {c : Client} (hr : ReachableBy ByTypes cfg c) (hcon : ConnectTypes cfg.connect)
    (ha : OptLt 65536 cfg.inboundAliases) (ho : c.ctl.state.open = true) (hc : c.ops.current = none) (m : Nat)
    (hm : ∀ st, .connected st ∈ recent c.ops.log → st.topicAliasMaximumToServer = m) :
    ∃ ws, ws.flatten = written (recent c.ops.log) ∧ (listen (.fresh m) ws).map (·.2) =
      some ((begun (recent c.ops.log)).map fun p => meaning (unaliased p)) :=
  C77_inputs hr.reachable ho hc (C77_given hr hcon ha) m hm

/-- **C77, calls, at any time**. -/
theorem C77_read_calls {cfg : Client5.Config} {c : Client} (hr : ReachableBy ByTypes cfg c)
    (hcon : ConnectTypes cfg.connect) (ha : OptLt 65536 cfg.inboundAliases) {ws : List Bytes}
    (hws : Begins (written (recent c.ops.log)) ws) (m : Nat)
    (hm : ∀ st, .connected st ∈ recent c.ops.log → st.topicAliasMaximumToServer = m) :
    (listen (.fresh m) ws).map (·.2) =
        some (((begun (recent c.ops.log)).take ws.length).map fun p => meaning (unaliased p)) ∧
      ws.length ≤ (begun (recent c.ops.log)).length :=
  C77_read_inputs hr.reachable (C77_given hr hcon ha) hws m hm

/-- The hypotheses are met by a client that publishes twice, acknowledges a PUBLISH it receives and is then stopped with a
DISCONNECT of the user. -/
example : ∃ c, ReachableBy ByTypes { outboundAliases := .lru } c ∧ c.ctl.state.open = true ∧ c.ops.current = none ∧
    (∀ st, .connected st ∈ recent c.ops.log → st.topicAliasMaximumToServer = 5) ∧
    (begun (recent c.ops.log)).tail = [publishTo [97, 47, 98] 0, .publish { topic := [97, 47, 98], qos := 1, packetId := 1 },
      .puback { packetId := 9 }, .disconnect { reasonString := some [98, 121, 101] }] := by
  obtain ⟨c, hr, hx⟩ := run_test_by (allowed := ByTypes) (cfg := { outboundAliases := .lru })
    (es := twice ++ [.writeComplete .success, .packet (.publish { topic := [99], qos := 1, packetId := 9 }) false 3,
      .service {}, .writeComplete .success, .setDesired .stopped (some { reasonString := some [98, 121, 101] }), .service {}])
    (t := fun c => c.ctl.state.open && decide (c.ops.current = none) &&
      decide ((begun (recent c.ops.log)).tail = [publishTo [97, 47, 98] 0,
        .publish { topic := [97, 47, 98], qos := 1, packetId := 1 }, .puback { packetId := 9 },
        .disconnect { reasonString := some [98, 121, 101] }]) &&
      (recent c.ops.log).all (fun | .connected st => st.topicAliasMaximumToServer == 5 | _ => true))
    (by decide +kernel) (by
      intro e he
      simp only [twice, connectWith, publishTo, List.cons_append, List.nil_append, List.mem_cons, List.not_mem_nil,
        or_false] at he
      rcases he with rfl | rfl | rfl | rfl | rfl | rfl | rfl | rfl | rfl | rfl | rfl | rfl | rfl | rfl | rfl
      case inr.inr.inr.inr.inr.inr.inl => exact ⟨by simp [OptLt], by simp [OptLt]⟩
      case inr.inr.inr.inr.inr.inr.inr.inl => exact ⟨by simp [OptLt], by simp [OptLt]⟩
      case inr.inr.inr.inr.inr.inr.inr.inr.inr.inr.inr.inr.inr.inl =>
        exact ⟨{ reasonString := some [98, 121, 101] }, by decide +kernel, by simp [OptLt]⟩
      all_goals trivial)
  simp only [Bool.and_eq_true, decide_eq_true_eq, List.all_eq_true] at hx
  obtain ⟨⟨⟨ho, hc⟩, hb⟩, hm⟩ := hx
  exact ⟨c, hr, ho, hc, fun st h => by simpa using hm _ h, hb⟩

end Mqtt.Props
