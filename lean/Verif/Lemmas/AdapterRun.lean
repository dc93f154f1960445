import Verif.Spec.Adapter
import Verif.Lemmas.Client5Run

/-!
Running the model of the adapter on lists of events, for concrete histories.
-/
namespace Mqtt.Adapter

open Mqtt.V5 Mqtt.SubscriptionSet
open Mqtt.Client5 (Config Client LEvent Effect Fault Desired)

instance (s : Sys) (e : Client5.Event) : Decidable (Enabled.Direct s e) := by
  cases e <;> simp only [Enabled.Direct] <;> infer_instance

instance (s : Sys) (e : Event) : Decidable (Enabled s e) := by
  cases e <;> simp only [Enabled] <;> infer_instance

instance (s : Sys) (e : Event) : Decidable (Exclusive s e) := by
  cases e with
  | client e => cases e <;> simp only [Exclusive] <;> infer_instance
  | _ => simp only [Exclusive]; infer_instance

instance (s : Sys) (e : Event) : Decidable (NoStart s e) := by
  cases e with
  | client e => cases e <;> simp only [NoStart] <;> infer_instance
  | _ => simp only [NoStart]; infer_instance

/-- Outcome of a history. -/
inductive Outcome where
  | ok (s : Sys)
  | fault (f : Fault)
  | impossible

/-- Run a history. -/
def run (allow : Sys → Event → Prop) [∀ s e, Decidable (allow s e)] (s : Sys) : List Event → Outcome
  | [] => .ok s
  | e :: es =>
    if Enabled s e ∧ allow s e then
      match step s e with
      | .error f => .fault f
      | .ok s => run allow s es
    else .impossible

variable {allow : Sys → Event → Prop} [∀ s e, Decidable (allow s e)]

theorem run_ok {es : List Event} {s s' : Sys} (h : run allow s es = .ok s') (hr : ReachableIf allow s) :
    ReachableIf allow s' := by
  induction es generalizing s with
  | nil => cases h; exact hr
  | cons e es ih =>
    rw [run] at h
    split at h
    · rename_i he
      split at h
      · cases h
      · rename_i s1 hs
        exact ih h (.step hr he.1 he.2 hs)
    · cases h

theorem run_follows {es : List Event} {s0 s s' : Sys} (h : run allow s es = .ok s') (hr : Follows allow s0 s) :
    Follows allow s0 s' := by
  induction es generalizing s with
  | nil => cases h; exact hr
  | cons e es ih =>
    rw [run] at h
    split at h
    · rename_i he
      split at h
      · cases h
      · rename_i s1 hs
        exact ih h (.step hr he.1 he.2 hs)
    · cases h

theorem run_fault {es : List Event} {s : Sys} {f : Fault} (h : run allow s es = .fault f) (hr : ReachableIf allow s) :
    ∃ s1 e, ReachableIf allow s1 ∧ Enabled s1 e ∧ allow s1 e ∧ step s1 e = .error f := by
  induction es generalizing s with
  | nil => cases h
  | cons e es ih =>
    rw [run] at h
    split at h
    · rename_i he
      split at h
      · rename_i f' hs
        cases h
        exact ⟨s, e, hr, he.1, he.2, hs⟩
      · rename_i s1 hs
        exact ih h (.step hr he.1 he.2 hs)
    · cases h

/-- A test on the state a history leads to. -/
def Outcome.test (o : Outcome) (t : Sys → Bool) : Bool :=
  match o with
  | .ok s => t s
  | _ => false

/-- An adapter for a new client. -/
def Sys.new (cfg : Config) : Sys := { cfg := cfg, client := Client.new cfg }

omit [∀ s e, Decidable (allow s e)] in
theorem new_reachable (cfg : Config) : ReachableIf allow (Sys.new cfg) :=
  .new .new (by show Desired.stopped ≠ _; decide)

theorem run_test {cfg : Config} {es : List Event} {t : Sys → Bool}
    (h : (run allow (Sys.new cfg) es).test t = true) : ∃ s, ReachableIf allow s ∧ t s = true := by
  cases hr : run allow (Sys.new cfg) es with
  | ok s =>
    rw [hr] at h
    exact ⟨s, run_ok hr (new_reachable cfg), h⟩
  | fault f => rw [hr] at h; cases h
  | impossible => rw [hr] at h; cases h

/-- The events of the client that bring up a connection once that is asked for. -/
def serve : List Event :=
  [.client (.service {}), .client (.setup none 1), .client (.service {}), .client (.writeComplete .success),
    .client (.packet (.connack {}) false 1)]

/-- An adapter that is connected. -/
def connected : List Event := [.run, .connect {}, .run] ++ serve

example : (run Exclusive (Sys.new {}) connected).test (fun s => s.ad.state == .stayConnected &&
    s.client.ctl.state == .connected && s.ad.log == [.connectCalled 0, .connecting 0, .attempting,
      .connectionSuccess, .connectDone 0 .ok]) = true := by
  decide +kernel

end Mqtt.Adapter
