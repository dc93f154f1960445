import Verif.Lemmas.Client5Stream
import Verif.Lemmas.Client5Run

/-!
C77: the other end of a connection of the MQTT 5 client reads the packets the client sends, in order and unchanged.

`recent a` are the effects of the last connection of a history `a`, `begun` the packets whose sending has begun on it,
`wires` their bytes, `written` all bytes handed to the channel.
-/
namespace Mqtt.Props

open Mqtt.V5 Mqtt.Spec Mqtt.Spec5 Mqtt.Client5

/-- At every moment, the bytes written on a connection are the beginning of the packets begun on it, one after the other. -/
theorem C77_stream {cfg : Config} {c : Client} (hr : Client5.Reachable cfg c) {a b : List Effect}
    (hab : c.ops.log = a ++ b) : written (recent a) <+: (wires (recent a)).flatten := by
  refine written_prefix fun x y z hx => (reachable_stream hr).each x y (z ++ b) ?_
  rw [hab, hx]
  simp

/-- A server that finds packets at the beginning of the stream, and grants as many aliases as its CONNACK said, reads
the packets sent first, with the topics the user gave. -/
theorem C77_read {cfg : Config} {c : Client} (hr : Client5.Reachable cfg c) {a b : List Effect}
    (hab : c.ops.log = a ++ b) (hrep : AllRep a) {ws : List Bytes} (hws : Begins (written (recent a)) ws) (m : Nat)
    (hm : ∀ st, .connected st ∈ recent a → st.topicAliasMaximumToServer = m) :
    (listen (.fresh m) ws).map (·.2) =
        some (((begun (recent a)).take ws.length).map fun p => meaning (unaliased p)) ∧
      ws.length ≤ (begun (recent a)).length := by
  have he : Each (Streams cfg.outboundAliases) a := fun x y z hx => (reachable_stream hr).each x y (z ++ b) (by rw [hab, hx]; simp)
  obtain ⟨s, hs, _⟩ := listen_all he hrep m hm
  have hp := begins_prefix hws (listen_packet hs) (C77_stream hr hab)
  have hlen := hp.length_le
  rw [wires_begun] at hlen
  refine ⟨?_, hlen⟩
  rw [List.map_take, List.prefix_iff_eq_take.1 hp, List.length_take, wires_begun, Nat.min_eq_left hlen]
  exact listen_take hs ws.length

/-- While a channel is open and no packet is half sent, the whole of each packet begun has been written, and the server
reads all of them. -/
theorem C77_whole {cfg : Config} {c : Client} (hr : Client5.Reachable cfg c) (ho : c.ctl.state.open = true)
    (hc : c.ops.current = none) (hrep : AllRep c.ops.log) (m : Nat)
    (hm : ∀ st, .connected st ∈ recent c.ops.log → st.topicAliasMaximumToServer = m) :
    ∃ ws, ws.flatten = written (recent c.ops.log) ∧ (listen (.fresh m) ws).map (·.2) =
      some ((begun (recent c.ops.log)).map fun p => meaning (unaliased p)) := by
  have hi := reachable_stream hr
  obtain ⟨s, hs, _⟩ := listen_all hi.each hrep m hm
  have hf := hi.opened ho
  have hb := hf.bytes
  rw [hf.idle hc] at hb
  exact ⟨_, by rw [hb]; simp [stepsBytes], by rw [hs]; rfl⟩

/-- A client of automatic topic aliases publishes twice to the same topic, to a server that allows five aliases. -/
def twice : List Event :=
  connectWith { topicAliasMaximum := some 5 } ++
    [.submit (publishTo [97, 47, 98] 0) 0 false, .submit (publishTo [97, 47, 98] 1) 0 false, .service {}]

/-- The second PUBLISH is written with an empty topic. The hypotheses of the theorems above are met, and the server reads
the topic in both. -/
example : ∃ c, Client5.Reachable { outboundAliases := .lru } c ∧ c.ctl.state.open = true ∧ c.ops.current = none ∧
    AllRep c.ops.log ∧ (∀ st, .connected st ∈ recent c.ops.log → st.topicAliasMaximumToServer = 5) ∧
    Begins (written (recent c.ops.log)) [[16, 13, 0, 4, 77, 81, 84, 84, 5, 2, 0, 0, 0, 0, 0],
      [48, 9, 0, 3, 97, 47, 98, 3, 35, 0, 1], [50, 8, 0, 0, 0, 1, 3, 35, 0, 1]] ∧
    (begun (recent c.ops.log)).tail = [publishTo [97, 47, 98] 0, .publish { topic := [97, 47, 98], qos := 1, packetId := 1 }] := by
  obtain ⟨c, hr, ht⟩ := run_test (cfg := { outboundAliases := .lru }) (es := twice)
    (t := fun c => c.ctl.state.open && decide (c.ops.current = none) &&
      decide (begun c.ops.log = [.connect { cleanStart := true }, publishTo [97, 47, 98] 0,
        .publish { topic := [97, 47, 98], qos := 1, packetId := 1 }]) &&
      (recent c.ops.log).all (fun | .connected st => st.topicAliasMaximumToServer == 5 | _ => true) &&
      decide (recent c.ops.log = c.ops.log) &&
      decide (written c.ops.log = [16, 13, 0, 4, 77, 81, 84, 84, 5, 2, 0, 0, 0, 0, 0,
        48, 9, 0, 3, 97, 47, 98, 3, 35, 0, 1, 50, 8, 0, 0, 0, 1, 3, 35, 0, 1])) (by decide +kernel)
  simp only [Bool.and_eq_true, decide_eq_true_eq, List.all_eq_true] at ht
  obtain ⟨⟨⟨⟨⟨ho, hc⟩, hb⟩, hm⟩, hl⟩, hw⟩ := ht
  refine ⟨c, hr, ho, hc, ?_, ?_, ?_, ?_⟩
  · intro u p w h
    have : p ∈ begun c.ops.log := List.mem_filterMap.2 ⟨_, h, rfl⟩
    rw [hb] at this
    simp only [List.mem_cons, List.not_mem_nil, or_false] at this
    rcases this with rfl | rfl | rfl
    · exact ⟨by decide, by simp [Short], by simp [OptShort], by simp [OptShort], by simp [OptLt], by simp [OptLt],
        by simp [OptLt], by simp [OptLt], by simp [OptLt], by simp [OptLt], by simp [OptLt], by simp,
        by simp [UserFits], by simp [OptShort], by simp [OptShort]⟩
    · simp [Representable, publishTo, OptLt]
    · simp [Representable, OptLt]
  · intro st h
    simpa using hm _ h
  · rw [hl, hw]
    exact ⟨by decide +kernel, by decide⟩
  · rw [hl, hb]
    rfl

end Mqtt.Props
