import Verif.Client5

/-!
Running the model of the MQTT 5 client on lists of events, for concrete histories.
-/
namespace Mqtt.Client5

open Mqtt.V5

theorem newPublish_same {u v : PublishView} (h : newPublish u = some v) : u = v := by
  unfold newPublish at h
  split at h
  · cases h
  · split at h
    · cases h
    · exact Option.some.inj h

theorem newSubscribe_same {u v : SubscribeView} (h : newSubscribe u = some v) : u = v := by
  unfold newSubscribe at h
  split at h
  · cases h
  · split at h
    · cases h
    · exact Option.some.inj h

theorem newUnsubscribe_same {u v : UnsubscribeView} (h : newUnsubscribe u = some v) : u = v := by
  unfold newUnsubscribe at h
  split at h
  · cases h
  · split at h
    · cases h
    · exact Option.some.inj h

/-- `Enabled.Submittable` as a test. -/
def submittable : Outgoing → Bool
  | .publish v => newPublish v == some v
  | .subscribe v => newSubscribe v == some v
  | .unsubscribe v => newUnsubscribe v == some v
  | _ => false

theorem submittable_iff (p : Outgoing) : submittable p = true ↔ Enabled.Submittable p := by
  cases p with
  | publish v =>
    simp only [submittable, Enabled.Submittable, beq_iff_eq]
    exact ⟨fun h => ⟨v, h⟩, fun ⟨u, h⟩ => by have := newPublish_same h; subst this; exact h⟩
  | subscribe v =>
    simp only [submittable, Enabled.Submittable, beq_iff_eq]
    exact ⟨fun h => ⟨v, h⟩, fun ⟨u, h⟩ => by have := newSubscribe_same h; subst this; exact h⟩
  | unsubscribe v =>
    simp only [submittable, Enabled.Submittable, beq_iff_eq]
    exact ⟨fun h => ⟨v, h⟩, fun ⟨u, h⟩ => by have := newUnsubscribe_same h; subst this; exact h⟩
  | _ => simp [submittable, Enabled.Submittable]

instance (p : Outgoing) : Decidable (Enabled.Submittable p) := decidable_of_iff _ (submittable_iff p)

instance (c : Client) (e : Event) : Decidable (Enabled c e) := by
  cases e <;> simp only [Enabled] <;> infer_instance

/-- Outcome of a history. -/
inductive Outcome where
  | ok (c : Client)
  | fault (f : Fault)
  | impossible
deriving DecidableEq

/-- Run a history. -/
def run (cfg : Config) (c : Client) : List Event → Outcome
  | [] => .ok c
  | e :: es =>
    if Enabled c e then
      match step cfg c e with
      | .error f => .fault f
      | .ok c => run cfg c es
    else .impossible

theorem run_ok {cfg : Config} {es : List Event} {c c' : Client} (h : run cfg c es = .ok c')
    (hr : Reachable cfg c) : Reachable cfg c' := by
  induction es generalizing c with
  | nil => cases h; exact hr
  | cons e es ih =>
    rw [run] at h
    split at h
    · rename_i he
      split at h
      · cases h
      · rename_i c1 hs
        exact ih h (.step hr he hs)
    · cases h

theorem run_fault {cfg : Config} {es : List Event} {c : Client} {f : Fault} (h : run cfg c es = .fault f)
    (hr : Reachable cfg c) : ∃ c1 e, Reachable cfg c1 ∧ Enabled c1 e ∧ step cfg c1 e = .error f := by
  induction es generalizing c with
  | nil => cases h
  | cons e es ih =>
    rw [run] at h
    split at h
    · rename_i he
      split at h
      · rename_i f' hs
        cases h
        exact ⟨c, e, hr, he, hs⟩
      · rename_i c1 hs
        exact ih h (.step hr he hs)
    · cases h

/-- A test on the state a history leads to. -/
def Outcome.test (o : Outcome) (t : Client → Bool) : Bool :=
  match o with
  | .ok c => t c
  | _ => false

theorem run_test {cfg : Config} {es : List Event} {t : Client → Bool}
    (h : (run cfg (Client.new cfg) es).test t = true) : ∃ c, Reachable cfg c ∧ t c = true := by
  cases hr : run cfg (Client.new cfg) es with
  | ok c =>
    rw [hr] at h
    exact ⟨c, run_ok hr .new, h⟩
  | fault f => rw [hr] at h; cases h
  | impossible => rw [hr] at h; cases h

theorem run_new_fault {cfg : Config} {es : List Event} {f : Fault} (h : run cfg (Client.new cfg) es = .fault f) :
    ∃ c e, Reachable cfg c ∧ Enabled c e ∧ step cfg c e = .error f := run_fault h .new

/-- A history that brings up a connection. -/
def connectWith (connack : ConnackView) : List Event :=
  [.setDesired .connected none, .service {}, .setup none 1, .service {}, .writeComplete .success,
    .packet (.connack connack) false 1]

/-- A valid publish. -/
def publishTo (topic : Bytes) (qos : Nat) (alias : Option Nat := none) : Outgoing :=
  .publish { topic := topic, qos := qos, topicAlias := alias }

example : (run {} (Client.new {}) (connectWith {})).test (fun c => c.ctl.state == .connected) = true := by
  decide +kernel

end Mqtt.Client5
