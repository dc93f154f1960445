import Verif.Props.C77
import Verif.Lemmas.Client5Rep

/-!
C77 in terms of what the client is given: the ranges of the C types of the numbers in the options and in what the user
submits, instead of a condition on the packets the client makes of them.
-/
namespace Mqtt.Props

open Mqtt.V5 Mqtt.Spec Mqtt.Spec5 Mqtt.Client5

/-- The numbers the client is given are in the ranges of their C types: in its options, in PUBLISH packets submitted, in
the packet identifiers of PUBLISH packets received. The strings of the DISCONNECT packets of the user are as short as
validation wants them. -/
structure Typed (cfg : Client5.Config) (log : List Effect) : Prop where
  connect : ConnectTypes cfg.connect
  aliases : OptLt 65536 cfg.inboundAliases
  submitted : ∀ u v, .submitted u (.publish v) ∈ log → PublishTypes v
  received : ∀ v ctl, .delivered v ctl ∈ log → v.packetId < 65536
  disconnect : ∀ u v w, .started u (.disconnect v) w ∈ log → DisconnectFits v

/-- All packets the client begins to send are then within the limits of MQTT 5. -/
theorem C77_numbers {cfg : Client5.Config} {c : Client} (hr : Client5.Reachable cfg c) (ht : Typed cfg c.ops.log) :
    AllRep c.ops.log := by
  intro u p w hs
  have hsrc := (reachable_source hr).source u p w hs
  have hid := hsrc.id
  cases p with
  | connect v =>
    obtain ⟨hnew, _⟩ := (reachable_connect hr).sent u v w hs
    refine C56_connect_fits _ v hnew ⟨ht.connect.keepAlive, ht.connect.sessionExpiry, ht.connect.receiveMaximum, ?_,
      ht.connect.maximumPacketSize, ht.connect.willDelay, ht.connect.will⟩
    intro x hx
    simp only at hx
    split at hx
    · rename_i n hn
      exact ht.aliases x (hn.trans hx)
    · exact ht.connect.topicAliasMaximum x hx
  | publish v =>
    obtain ⟨q, h1, h2, h3⟩ := hsrc.origin rfl
    cases q with
    | publish v' =>
      have := ht.submitted u v' h1
      simp only [plainPacket, Outgoing.publish.injEq, PublishView.mk.injEq] at h3
      have e1 : v'.messageExpiry = v.messageExpiry := by simp_all
      have e2 : v'.topicAlias = v.topicAlias := by simp_all
      refine ⟨by simp only [packetId] at hid; omega, ?_, ?_⟩
      · rw [← e1]; exact this.messageExpiry
      · rw [← e2]; exact this.topicAlias
    | _ => cases h3
  | subscribe v =>
    show v.packetId < 65536
    simp only [packetId] at hid
    omega
  | unsubscribe v =>
    show v.packetId < 65536
    simp only [packetId] at hid
    omega
  | puback v =>
    obtain ⟨h1, h2⟩ := hsrc.puback v rfl
    obtain ⟨v', ctl, h3, h4⟩ := queued_delivered hr h1
    have := ht.received v' ctl h3
    rw [h4] at this
    show PubackFits v
    rw [h2]
    exact ⟨this, by simp, by simp [OptShort], by simp [UserFits]⟩
  | pingreq => trivial
  | disconnect v => exact ht.disconnect u v w hs

/-- **C77, inputs**: while a channel is open and no packet is half sent, the server reads all packets begun on this
connection, in order and with the topics the user gave. -/
theorem C77_inputs {cfg : Client5.Config} {c : Client} (hr : Client5.Reachable cfg c) (ho : c.ctl.state.open = true)
    (hc : c.ops.current = none) (ht : Typed cfg c.ops.log) (m : Nat)
    (hm : ∀ st, .connected st ∈ recent c.ops.log → st.topicAliasMaximumToServer = m) :
    ∃ ws, ws.flatten = written (recent c.ops.log) ∧ (listen (.fresh m) ws).map (·.2) =
      some ((begun (recent c.ops.log)).map fun p => meaning (unaliased p)) :=
  C77_whole hr ho hc (C77_numbers hr ht) m hm

/-- **C77, inputs, at any time**: whatever packets a server finds at the beginning of the stream are those begun first on
this connection. -/
theorem C77_read_inputs {cfg : Client5.Config} {c : Client} (hr : Client5.Reachable cfg c) (ht : Typed cfg c.ops.log)
    {ws : List Bytes} (hws : Begins (written (recent c.ops.log)) ws) (m : Nat)
    (hm : ∀ st, .connected st ∈ recent c.ops.log → st.topicAliasMaximumToServer = m) :
    (listen (.fresh m) ws).map (·.2) =
        some (((begun (recent c.ops.log)).take ws.length).map fun p => meaning (unaliased p)) ∧
      ws.length ≤ (begun (recent c.ops.log)).length :=
  C77_read hr (List.append_nil _).symm (C77_numbers hr ht) hws m hm

/-- The hypotheses are met by a client that publishes twice and acknowledges a PUBLISH it receives. -/
example : ∃ c, Client5.Reachable { outboundAliases := .lru } c ∧ c.ctl.state.open = true ∧ c.ops.current = none ∧
    Typed { outboundAliases := .lru } c.ops.log ∧
    (∀ st, .connected st ∈ recent c.ops.log → st.topicAliasMaximumToServer = 5) ∧
    (begun (recent c.ops.log)).tail = [publishTo [97, 47, 98] 0, .publish { topic := [97, 47, 98], qos := 1, packetId := 1 },
      .puback { packetId := 9 }] := by
  obtain ⟨c, hr, hx⟩ := run_test (cfg := { outboundAliases := .lru })
    (es := twice ++ [.writeComplete .success, .packet (.publish { topic := [99], qos := 1, packetId := 9 }) false 3, .service {}])
    (t := fun c => c.ctl.state.open && decide (c.ops.current = none) &&
      decide ((begun (recent c.ops.log)).tail = [publishTo [97, 47, 98] 0,
        .publish { topic := [97, 47, 98], qos := 1, packetId := 1 }, .puback { packetId := 9 }]) &&
      (recent c.ops.log).all (fun | .connected st => st.topicAliasMaximumToServer == 5 | _ => true) &&
      c.ops.log.all (fun
        | .submitted _ (.publish v) => decide (v.messageExpiry = none ∧ v.topicAlias = none)
        | .delivered v _ => decide (v.packetId < 65536)
        | .started _ (.disconnect _) _ => false
        | _ => true)) (by decide +kernel)
  simp only [Bool.and_eq_true, decide_eq_true_eq, List.all_eq_true] at hx
  obtain ⟨⟨⟨⟨ho, hc⟩, hb⟩, hm⟩, hl⟩ := hx
  refine ⟨c, hr, ho, hc, ⟨⟨by decide, ?_, ?_, ?_, ?_, ?_, ?_⟩, ?_, ?_, ?_, ?_⟩, fun st h => by simpa using hm _ h, hb⟩
  · intro x hx; cases hx
  · intro x hx; cases hx
  · intro x hx; cases hx
  · intro x hx; cases hx
  · intro x hx; cases hx
  · intro x hx; cases hx
  · intro x hx; cases hx
  · intro u v h
    have := hl _ h
    simp only [decide_eq_true_eq] at this
    exact ⟨by rw [this.1]; simp [OptLt], by rw [this.2]; simp [OptLt]⟩
  · intro v ctl h
    simpa using hl _ h
  · intro u v w h
    simpa using hl _ h

end Mqtt.Props
