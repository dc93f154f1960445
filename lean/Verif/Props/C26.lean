import Verif.Lemmas.Client5Size
import Verif.Lemmas.Client5Run
import Verif.Props.C38

/-!
C26: the maximum packet size of the server.

The log has `started u p wire` when the client has taken operation `u` from its queue to write it out; `p` is the packet
and `wire` the bytes the encoder makes of it. `connected s` says that a CONNACK has been accepted with settings `s`, and
`disconnected` that a connection has ended.
-/
namespace Mqtt.Props
open Mqtt.Client5 Mqtt.V5

/-- The maximum packet size that holds, if a connection is up. -/
def allowed (log : List Effect) : Option Nat :=
  log.foldl (fun s e => match e with
    | .connected x => some x.maximumPacketSizeToServer
    | .disconnected => none
    | _ => s) none

theorem allowed_eq (log : List Effect) : allowed log = (inForce log).map (·.maximumPacketSizeToServer) := by
  have key : ∀ (log : List Effect) (o : Option Settings),
      log.foldl (fun s e => match e with
        | .connected x => some x.maximumPacketSizeToServer
        | .disconnected => none
        | _ => s) (o.map (·.maximumPacketSizeToServer)) =
      (log.foldl (fun s e => match e with
        | .connected x => some x
        | .disconnected => none
        | _ => s) o).map (·.maximumPacketSizeToServer) := by
    intro log
    induction log with
    | nil => intro o; rfl
    | cons e log ih =>
      intro o
      cases e with
      | connected x => exact ih (some x)
      | disconnected => exact ih none
      | _ => exact ih o
  exact key log none

/-- The operation has been sent before as a QoS 1 publish. -/
def Sent (log : List Effect) (u : Nat) : Prop := ∃ q, .encoded u q ∈ log ∧ isQos1 q = true

/-- The claim: what is started while a connection is up is no larger than the maximum. -/
def WithinMaximum (log : List Effect) : Prop :=
  ∀ a b u p wire max, log = a ++ .started u p wire :: b → allowed a = some max → wire.length ≤ max

theorem sized_at {cfg : Config} {c : Client} (h : Reachable cfg c) {a b : List Effect} {u : Nat} {p : Outgoing}
    {wire : Bytes} {max : Nat} (hl : c.ops.log = a ++ .started u p wire :: b) (hm : allowed a = some max) {i j : Nat}
    (hi : i = 2 ∨ i = 0 ∧ (isQos1 p = false ∨ Sent a u)) (hj : j = 3 ∨ j = 0 ∧ cfg.outboundAliases ≠ .lru) :
    wire.length ≤ max + (if isPublish p then growth i j else 0) := by
  rw [allowed_eq] at hm
  cases hf : inForce a with
  | none => rw [hf] at hm; cases hm
  | some s =>
    rw [hf] at hm
    cases hm
    exact (reachable_size h).sized a _ b hl u p wire s rfl hf i j hi hj

/-- **C26, partial**: without automatic topic aliases, a packet other than a QoS 1 publish that is sent for the first time
is no larger than the maximum. Missing: that publish and automatic topic aliases, for which it does not hold. -/
theorem C26_partial {cfg : Config} {c : Client} (h : Reachable cfg c) {a b : List Effect} {u : Nat} {p : Outgoing}
    {wire : Bytes} {max : Nat} (hl : c.ops.log = a ++ .started u p wire :: b) (hm : allowed a = some max)
    (hq : isQos1 p = false ∨ Sent a u) (ha : cfg.outboundAliases ≠ .lru) : wire.length ≤ max := by
  have := sized_at h hl hm (i := 0) (j := 0) (.inr ⟨rfl, hq⟩) (.inr ⟨rfl, ha⟩)
  simpa [growth] using this

/-- A packet other than a publish is no larger than the maximum. -/
theorem C26_other {cfg : Config} {c : Client} (h : Reachable cfg c) {a b : List Effect} {u : Nat} {p : Outgoing}
    {wire : Bytes} {max : Nat} (hl : c.ops.log = a ++ .started u p wire :: b) (hm : allowed a = some max)
    (hp : isPublish p = false) : wire.length ≤ max := by
  have := sized_at h hl hm (i := 2) (j := 3) (.inl rfl) (.inl rfl)
  simpa [hp] using this

/-- Without automatic topic aliases a publish exceeds the maximum by three bytes at most. -/
theorem C26_first {cfg : Config} {c : Client} (h : Reachable cfg c) {a b : List Effect} {u : Nat} {p : Outgoing}
    {wire : Bytes} {max : Nat} (hl : c.ops.log = a ++ .started u p wire :: b) (hm : allowed a = some max)
    (ha : cfg.outboundAliases ≠ .lru) : wire.length ≤ max + 3 := by
  have := sized_at h hl hm (i := 2) (j := 0) (.inl rfl) (.inr ⟨rfl, ha⟩)
  split at this
  · simpa [growth] using this
  · omega

/-- No packet exceeds the maximum by more than seven bytes. -/
theorem C26_any {cfg : Config} {c : Client} (h : Reachable cfg c) {a b : List Effect} {u : Nat} {p : Outgoing}
    {wire : Bytes} {max : Nat} (hl : c.ops.log = a ++ .started u p wire :: b) (hm : allowed a = some max) :
    wire.length ≤ max + 7 := by
  have := sized_at h hl hm (i := 2) (j := 3) (.inl rfl) (.inl rfl)
  split at this
  · simpa [growth] using this
  · omega

/-- The maximum is the one in the CONNACK: when a CONNACK with that property makes the client connected, it is the one
that holds. -/
theorem C26_maximum {cfg : Config} {c c' : Client} {v : ConnackView} {acquire : Bool} {now max : Nat}
    (hs : c.ctl.state = .mqttConnect) (hv : v.maximumPacketSize = some max)
    (h : Client5.step cfg c (.packet (.connack v) acquire now) = .ok c') (hc : c'.ctl.state = .connected) :
    allowed c'.ops.log = some max := by
  simp only [Client5.step, Client.onPacket, hs, Client.onConnack] at h
  have keep : ∀ {k : Control} {e : Error}, k.state = .mqttConnect →
      (k.shutdownChannel e).state = .connected → False := by
    intro k e hk hx
    obtain ⟨_, h1 | h1⟩ := shutdownChannel_cases k e
    · rw [h1, hk] at hx; cases hx
    · rw [h1] at hx; cases hx
  have emit : ∀ {k k' : Control} {e : Error}, k.emitFinalConnack e = .ok k' → k'.state = k.state := by
    intro k k' e hk
    unfold Control.emitFinalConnack at hk
    split at hk
    · cases hk
    · cases hk; simp
  split at h
  · split at h
    · cases h
    · rename_i hk
      cases h
      exact (keep ((emit hk).trans hs) hc).elim
  · split at h
    · split at h
      · cases h
      · rename_i hk
        cases h
        exact (keep (emit hk) hc).elim
    · cases h
      have hl : ∀ k : Control, (({ c with ctl := k } : Client).toConnected cfg now).ops.log =
          c.ops.log ++ (completions (lostOnConnection cfg k.settings c.ops) .offlinePolicy ++ [.connected k.settings]) := by
        intro k; simp [Client.toConnected]
      rw [hl, ← List.append_assoc, allowed, List.foldl_append]
      simp only [List.foldl_cons, List.foldl_nil, Option.some.injEq]
      rw [Props.V5.applyConnack_eq, hv]
      rfl

/-- What has been started, and whether it is too large. -/
def tooLarge : List Effect → List Effect → List Nat
  | _, [] => []
  | a, x :: b => (match x, allowed a with
    | .started _ _ wire, some max => if wire.length ≤ max then [] else [wire.length - max]
    | _, _ => []) ++ tooLarge (a ++ [x]) b

theorem tooLarge_spec {a b : List Effect} {n : Nat} (h : n + 1 ∈ tooLarge a b) : ¬WithinMaximum (a ++ b) := by
  induction b generalizing a with
  | nil => cases h
  | cons x b ih =>
    simp only [tooLarge, List.mem_append] at h
    rcases h with h | h
    · split at h
      · rename_i u p wire max hm
        split at h
        · cases h
        · intro hw
          have := hw a b u p wire max rfl hm
          omega
      · cases h
    · have := ih h
      simpa using this

/-- **C26 does not hold**: a QoS 1 publish of 6 bytes is checked before it gets a packet id, and 8 bytes are sent. -/
theorem C26_violated_packet_id : ∃ cfg c, Reachable cfg c ∧ cfg.outboundAliases = .disabled ∧
    ¬WithinMaximum c.ops.log := by
  let cfg : Config := {}
  have ht : (run cfg (Client.new cfg) (connectWith { maximumPacketSize := some 6 } ++
      [.submit (publishTo [97] 1) 0 false, .service {}])).test
      (fun c => decide (tooLarge [] c.ops.log = [2])) = true := by decide +kernel
  obtain ⟨c, hr, hc⟩ := run_test ht
  rw [decide_eq_true_eq] at hc
  exact ⟨cfg, c, hr, rfl, tooLarge_spec (a := []) (n := 1) (by rw [hc]; simp)⟩

/-- **C26 does not hold** for QoS 0 either: an automatic topic alias is added after the check. -/
theorem C26_violated_alias : ∃ cfg c, Reachable cfg c ∧ (∀ u p, .submitted u p ∈ c.ops.log → isQos1 p = false) ∧
    ¬WithinMaximum c.ops.log := by
  let cfg : Config := { outboundAliases := .lru }
  have ht : (run cfg (Client.new cfg) (connectWith { maximumPacketSize := some 6, topicAliasMaximum := some 5 } ++
      [.submit (publishTo [97] 0) 0 false, .service {}])).test
      (fun c => decide (tooLarge [] c.ops.log = [3]) &&
        (c.ops.log.all fun x => match x with | .submitted _ p => !isQos1 p | _ => true)) = true := by decide +kernel
  obtain ⟨c, hr, hc⟩ := run_test ht
  rw [Bool.and_eq_true, decide_eq_true_eq, List.all_eq_true] at hc
  refine ⟨cfg, c, hr, fun u p hm => ?_, tooLarge_spec (a := []) (n := 2) (by rw [hc.1]; simp)⟩
  simpa using hc.2 _ hm

/-- Not vacuous: with a maximum of 6 a publish of 6 bytes is sent and one of 7 is not. -/
example : (run {} (Client.new {}) (connectWith { maximumPacketSize := some 6 } ++
    [.submit (publishTo [97] 0) 0 false, .submit (publishTo [97, 98] 0) 0 false, .service {}])).test
    (fun c => decide ((c.ops.log.filterMap fun
      | .started u _ wire => some (u, wire.length)
      | .completed u _ e _ => some (u, if e = .packetValidation then 0 else 1)
      | _ => none).drop 2 = [(1, 6), (2, 0)]) && decide (allowed c.ops.log = some 6)) = true := by decide +kernel

end Mqtt.Props
