import Verif.Lemmas.AdapterStems
import Verif.Lemmas.AdapterRun

/-! C70: adapter: what the server refuses is not reported as success. -/
namespace Mqtt.Props
open Mqtt.Adapter

variable {s : Sys}

theorem codeOf_ok {e : Client5.Error} (h : Code.of e = .ok) : e = .success := by
  unfold Code.of at h
  split at h
  · assumption
  · cases h

/-- A publish is reported as a success only if the MQTT 5 publish made for it succeeded and the server did not answer
it with a reason code that means failure. -/
theorem C70_publish (h : Adapter.Reachable s) {i id : Nat} {v : V5.PublishView} (ha : .accepted i id (.publish v) ∈ s.ad.log)
    {r : Result} (hf : .finished i id r ∈ s.ad.log) (hr : r.code = .ok) :
    ∃ u p ack, Sent (.publish v) u s.client.ops.log ∧ .completed u p .success ack ∈ s.client.ops.log ∧
      ∀ a, ack = some (.puback a) → a.reasonCode < 128 := by
  obtain ⟨k', ⟨k, h1, h2⟩, h3⟩ := (reachable_stems h).told i id r hf
  obtain ⟨_, rfl⟩ := accepted_unique (reachable_ledger h).numbered ha h1
  rcases h2 with rfl | ⟨h2, _⟩
  · rcases h3 with ⟨u, p, e, ack, h3, h4, rfl⟩ | ⟨h3, _⟩ | ⟨rfl, _⟩
    · have key : e = .success ∧ ∀ a, ack = some (.puback a) → a.reasonCode < 128 := by
        unfold result at hr
        dsimp only at hr
        split at hr
        · rename_i a
          split at hr
          · cases hr
          · rename_i hx
            have he := codeOf_ok hr
            refine ⟨he, fun a' ha' => ?_⟩
            injection ha' with ha'
            injection ha' with ha'
            subst ha'
            exact Nat.lt_of_not_le fun hy => hx ⟨he, hy⟩
        · rename_i hx
          exact ⟨codeOf_ok hr, fun a ha => absurd ha (hx a)⟩
      obtain ⟨rfl, h5⟩ := key
      exact ⟨u, p, ack, h3, h4, h5⟩
    · cases h3
    · cases hr
  · cases h2

/-- A subscribe to one topic that is reported as a success, with the QoS granted: it was answered by the server, and a
reason code that is not a QoS is reported as `AWS_MQTT_QOS_FAILURE` (128). -/
theorem C70_subscribe (h : Adapter.Reachable s) {i id : Nat} {q : Request} {v : V5.SubscribeView}
    (ha : .accepted i id (.subscribe [q] v false) ∈ s.ad.log)
    {r : Result} (hf : .finished i id r ∈ s.ad.log) (hr : r.code = .ok) :
    ∃ u p ack, Sent (.subscribe [q] v false) u s.client.ops.log ∧ .completed u p .success ack ∈ s.client.ops.log ∧
      ∃ g, r.granted = some [(q.filter, g)] ∧ ∀ a c cs, ack = some (.suback a) → a.reasonCodes = c :: cs →
        g = if c ≤ 2 then c else 128 := by
  obtain ⟨k', ⟨k, h1, h2⟩, h3⟩ := (reachable_stems h).told i id r hf
  obtain ⟨_, rfl⟩ := accepted_unique (reachable_ledger h).numbered ha h1
  rcases h2 with rfl | ⟨h2, _⟩
  · rcases h3 with ⟨u, p, e, ack, h3, h4, rfl⟩ | ⟨h3, _⟩ | ⟨rfl, _⟩
    · have hr : Code.of e = .ok := hr
      have := codeOf_ok hr
      subst this
      refine ⟨u, p, ack, h3, h4, _, rfl, fun a c cs h5 h6 => ?_⟩
      subst h5
      simp [subackCodes, h6, grantedQos]
    · cases h3
    · cases hr
  · cases h2

/-- The same with many topics: the list has one entry for each reason code, in their order. -/
theorem C70_subscribe_multi (h : Adapter.Reachable s) {i id : Nat} {rs : List Request} {v : V5.SubscribeView}
    (ha : .accepted i id (.subscribe rs v true) ∈ s.ad.log)
    {r : Result} (hf : .finished i id r ∈ s.ad.log) (hr : r.code = .ok) :
    ∃ u p ack, Sent (.subscribe rs v true) u s.client.ops.log ∧ .completed u p .success ack ∈ s.client.ops.log ∧
      ∀ a, ack = some (.suback a) → ∃ g, r.granted = some g ∧ g.length = a.reasonCodes.length ∧
        ∀ (j : Nat) (q : Request) (c : Nat), rs[j]? = some q → a.reasonCodes[j]? = some c → g[j]? = some (q.filter, if c ≤ 2 then c else 128) := by
  obtain ⟨k', ⟨k, h1, h2⟩, h3⟩ := (reachable_stems h).told i id r hf
  obtain ⟨_, rfl⟩ := accepted_unique (reachable_ledger h).numbered ha h1
  rcases h2 with rfl | ⟨h2, _⟩
  · rcases h3 with ⟨u, p, e, ack, h3, h4, rfl⟩ | ⟨h3, _⟩ | ⟨rfl, _⟩
    · have hr : Code.of e = .ok := hr
      have := codeOf_ok hr
      subst this
      refine ⟨u, p, ack, h3, h4, fun a h5 => ?_⟩
      subst h5
      refine ⟨multiGrant rs a.reasonCodes, rfl, by simp [multiGrant], fun j q c h6 h7 => ?_⟩
      unfold multiGrant
      rw [List.getElem?_map, List.getElem?_zipIdx, h7]
      simp [h6, grantedQos]
    · cases h3
    · cases hr
  · cases h2

/-- Publish, subscribe and unsubscribe, all refused by the server. -/
def C70_refused : List Event :=
  connected ++ [.publish [97] [1] 1 false, .run, .subscribe [{ filter := [97] }] false, .run, .client (.service {}),
    .client (.writeComplete .success), .client (.packet (.puback { packetId := 1, reasonCode := 0x87 }) false 1),
    .client (.packet (.suback { packetId := 2, reasonCodes := [0x87] }) false 1), .unsubscribe [97], .run, .client (.service {}),
    .client (.writeComplete .success), .client (.packet (.unsuback { packetId := 3, reasonCodes := [0x87] }) false 1)]

/-- An unsubscribe that the server refuses is reported as a success. -/
theorem C70_violated_unsubscribe : ∃ s u p a v, ReachableIf Exclusive s ∧ .accepted 3 3 (.unsubscribe [97] v) ∈ s.ad.log ∧
    Sent (.unsubscribe [97] v) u s.client.ops.log ∧ .completed u p .success (some (.unsuback a)) ∈ s.client.ops.log ∧
    a.reasonCodes = [0x87] ∧ .finished 3 3 { code := .ok } ∈ s.ad.log := by
  obtain ⟨s, hr, ht⟩ := run_test (allow := Exclusive) (cfg := {}) (es := C70_refused)
    (t := fun s => decide (.accepted 3 3 (.unsubscribe [97] { topicFilters := [[97]] }) ∈ s.ad.log ∧
      .submitted 3 (.unsubscribe { topicFilters := [[97]] }) ∈ s.client.ops.log ∧
      .completed 3 (.unsubscribe { packetId := 3, topicFilters := [[97]] }) .success
        (some (.unsuback { packetId := 3, reasonCodes := [0x87] })) ∈ s.client.ops.log ∧
      .finished 3 3 { code := .ok } ∈ s.ad.log)) (by decide +kernel)
  have ht := of_decide_eq_true ht
  exact ⟨s, 3, _, _, _, hr, ht.1, ⟨_, _, rfl, ht.2.1, rfl⟩, ht.2.2.1, rfl, ht.2.2.2⟩

/-- The publish and the subscribe are reported as refused. -/
example : ∃ s, ReachableIf Exclusive s ∧ .finished 1 1 { code := .ackReason } ∈ s.ad.log ∧
    .finished 2 2 { code := .ok, granted := some [([97], 128)] } ∈ s.ad.log := by
  obtain ⟨s, hr, ht⟩ := run_test (allow := Exclusive) (cfg := {}) (es := C70_refused)
    (t := fun s => decide (.finished 1 1 { code := .ackReason } ∈ s.ad.log ∧
      .finished 2 2 { code := .ok, granted := some [([97], 128)] } ∈ s.ad.log)) (by decide +kernel)
  exact ⟨s, hr, of_decide_eq_true ht⟩

/-- Operations that succeed. -/
def C70_granted : List Event :=
  connected ++ [.publish [97] [1] 1 false, .run, .subscribe [{ filter := [97] }] false, .run,
    .subscribe [{ filter := [97] }, { filter := [98], qos := 1 }] true, .run, .client (.service {}),
    .client (.writeComplete .success), .client (.packet (.puback { packetId := 1 }) false 1),
    .client (.packet (.suback { packetId := 2, reasonCodes := [0] }) false 1),
    .client (.packet (.suback { packetId := 3, reasonCodes := [0x87, 1] }) false 1)]

example : ∃ s, ReachableIf Exclusive s ∧ .finished 1 1 { code := .ok } ∈ s.ad.log ∧
    .finished 2 2 { code := .ok, granted := some [([97], 0)] } ∈ s.ad.log ∧
    .finished 3 3 { code := .ok, granted := some [([97], 128), ([98], 1)] } ∈ s.ad.log := by
  obtain ⟨s, hr, ht⟩ := run_test (allow := Exclusive) (cfg := {}) (es := C70_granted)
    (t := fun s => decide (.finished 1 1 { code := .ok } ∈ s.ad.log ∧
      .finished 2 2 { code := .ok, granted := some [([97], 0)] } ∈ s.ad.log ∧
      .finished 3 3 { code := .ok, granted := some [([97], 128), ([98], 1)] } ∈ s.ad.log)) (by decide +kernel)
  exact ⟨s, hr, of_decide_eq_true ht⟩

end Mqtt.Props
