import Verif.Lemmas.Client5Begin
import Verif.Lemmas.Client5Run

/-!
C78: the order of the packets the MQTT 5 client sends on a connection.

`recent a` are the effects of the last connection of a history `a`, `begun` the packets whose sending has begun on it.
-/
namespace Mqtt.Props

open Mqtt.V5 Mqtt.Spec Mqtt.Spec5 Mqtt.Client5

theorem placed_prefix {cfg : Config} {c : Client} (hr : Client5.Reachable cfg c) {a b : List Effect}
    (hab : c.ops.log = a ++ b) : Each Placed a :=
  fun x y z hx => (reachable_place hr).each x y (z ++ b) (by rw [hab, hx]; simp)

/-- CONNECT is sent before all other packets, so at most once. -/
theorem C78_connect {cfg : Config} {c : Client} (hr : Client5.Reachable cfg c) {a b : List Effect}
    (hab : c.ops.log = a ++ b) {l r : List Outgoing} {v : ConnectView}
    (h : begun (recent a) = l ++ .connect v :: r) : l = [] := by
  obtain ⟨a1, u, w, a2, y, g1, g2, _⟩ := begun_split a h
  rw [← g2]
  exact (placed_prefix hr hab a1 _ a2 g1 u _ w rfl).1 rfl

/-- Nothing is sent after DISCONNECT. -/
theorem C78_disconnect {cfg : Config} {c : Client} (hr : Client5.Reachable cfg c) {a b : List Effect}
    (hab : c.ops.log = a ++ b) {l r : List Outgoing} {v : DisconnectView}
    (h : begun (recent a) = l ++ .disconnect v :: r) : r = [] := by
  cases r with
  | nil => rfl
  | cons q r =>
    rw [show l ++ .disconnect v :: q :: r = (l ++ [.disconnect v]) ++ q :: r by simp] at h
    obtain ⟨a1, u, w, a2, y, g1, g2, _⟩ := begun_split a h
    have := (placed_prefix hr hab a1 _ a2 g1 u _ w rfl).2.1 (.disconnect v) (by rw [g2]; simp)
    cases this

/-- Until the server has accepted the connection, nothing but CONNECT and DISCONNECT is sent. -/
theorem C78_accepted {cfg : Config} {c : Client} (hr : Client5.Reachable cfg c) {a b : List Effect} {u : Nat}
    {p : Outgoing} {w : Bytes} (hab : c.ops.log = a ++ .started u p w :: b) (h1 : ∀ v, p ≠ .connect v)
    (h2 : ∀ v, p ≠ .disconnect v) : ∃ st, .connected st ∈ recent a := by
  have h := (reachable_place hr).each a _ b hab u p w rfl
  refine live_accepted a (h.2.2 ?_ ?_)
  · cases p <;> first | rfl | exact absurd rfl (h1 _)
  · cases p <;> first | rfl | exact absurd rfl (h2 _)

/-- The first packet sent on a connection is CONNECT, or else DISCONNECT (then it is the only one, by `C78_disconnect`),
unless the server accepts the connection before anything is sent. That it is always CONNECT is false, see below. -/
theorem C78_first_partial {cfg : Config} {c : Client} (hr : Client5.Reachable cfg c) {a b : List Effect}
    (hab : c.ops.log = a ++ b) {p : Outgoing} {r : List Outgoing} (h : begun (recent a) = p :: r) :
    (∃ v, p = .connect v) ∨ (∃ v, p = .disconnect v) ∨
      ∃ x st y, recent a = x ++ .connected st :: y ∧ begun x = [] := by
  obtain ⟨a1, u, w, a2, y, g1, g2, g3⟩ := begun_split a (l := []) h
  have hp := placed_prefix hr hab a1 _ a2 g1 u p w rfl
  by_cases hc : isConnect p = true
  · left
    cases p <;> first | exact ⟨_, rfl⟩ | cases hc
  · by_cases hd : isDisconnect p = true
    · right; left
      cases p <;> first | exact ⟨_, rfl⟩ | cases hd
    · right; right
      obtain ⟨st, hst⟩ := live_accepted a1 (hp.2.2 (by simpa using hc) (by simpa using hd))
      obtain ⟨x, z, hx⟩ := List.append_of_mem hst
      refine ⟨x, st, z ++ .started u p w :: y, by rw [g3, hx]; simp, ?_⟩
      rw [hx, begun_append] at g2
      exact (List.append_eq_nil_iff.1 g2).1

/-- A client that connects, publishes, and is stopped with a DISCONNECT. -/
def visit : List Event :=
  connectWith {} ++ [.submit (publishTo [97] 0) 0 false, .service {}, .writeComplete .success,
    .setDesired .stopped (some {}), .service {}]

/-- The case the theorems speak of. -/
example : ∃ c, Client5.Reachable {} c ∧
    begun (recent c.ops.log) = [.connect { cleanStart := true }, publishTo [97] 0, .disconnect {}] := by
  obtain ⟨c, hr, ht⟩ := run_test (cfg := {}) (es := visit)
    (t := fun c => decide (begun (recent c.ops.log) = [.connect { cleanStart := true }, publishTo [97] 0, .disconnect {}]))
    (by decide +kernel)
  exact ⟨c, hr, by simpa using ht⟩

/-- A client that is stopped with a DISCONNECT right after the channel is there: DISCONNECT is all that it writes. -/
theorem C78_violated_stop : ∃ c v, Client5.Reachable {} c ∧ begun (recent c.ops.log) = [.disconnect v] ∧
    written (recent c.ops.log) = [224, 2, 0, 0] := by
  obtain ⟨c, hr, ht⟩ := run_test (cfg := {})
    (es := [.setDesired .connected none, .service {}, .setup none 1, .setDesired .stopped (some {}), .service {}])
    (t := fun c => decide (begun (recent c.ops.log) = [.disconnect {}]) &&
      decide (written (recent c.ops.log) = [224, 2, 0, 0])) (by decide +kernel)
  simp only [Bool.and_eq_true, decide_eq_true_eq] at ht
  exact ⟨c, _, hr, ht.1, ht.2⟩

/-- A server sends CONNACK as soon as the channel is there: the client takes it for an answer, fails its own CONNECT and
publishes to a server that it never asked for a connection. -/
theorem C78_violated_connack : ∃ c v, Client5.Reachable {} c ∧ begun (recent c.ops.log) = [.publish v] ∧
    written (recent c.ops.log) = [48, 4, 0, 1, 97, 0] ∧
    c.ops.log.any (fun | .completed _ (.connect _) .packetValidation _ => true | _ => false) = true := by
  obtain ⟨c, hr, ht⟩ := run_test (cfg := {})
    (es := [.setDesired .connected none, .service {}, .setup none 1, .packet (.connack {}) false 1,
      .submit (publishTo [97] 0) 0 false, .service {}])
    (t := fun c => decide (begun (recent c.ops.log) = [publishTo [97] 0]) &&
      decide (written (recent c.ops.log) = [48, 4, 0, 1, 97, 0]) &&
      c.ops.log.any (fun | .completed _ (.connect _) .packetValidation _ => true | _ => false)) (by decide +kernel)
  simp only [Bool.and_eq_true, decide_eq_true_eq] at ht
  exact ⟨c, _, hr, ht.1.1, ht.1.2, ht.2⟩

end Mqtt.Props
