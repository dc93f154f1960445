import Verif.Timing5
import Verif.Lemmas.Client5Run

/-!
Running the model of the MQTT 5 client with clock readings, for concrete histories.
-/
namespace Mqtt.Client5

open Mqtt.V5

/-- Events in which the clock does not move. -/
inductive TEvent where
  | service
  | setup
  | packet (p : Received)
  | plain (e : Event)

def TEvent.at (t : Nat) : TEvent → Event
  | .service => .service { now := t, loopNow := fun _ => t, pingNow := t, queueNow := t }
  | .setup => .setup none t
  | .packet p => .packet p false t
  | .plain e => e

/-- The event does not read the clock. -/
def Event.timeless : Event → Bool
  | .service _ => false
  | .setup _ _ => false
  | .packet _ _ _ => false
  | _ => true

def TEvent.fine : TEvent → Bool
  | .plain e => e.timeless
  | _ => true

theorem fine_reads {e : TEvent} (h : e.fine = true) (t : Nat) : Reads t t (e.at t) := by
  cases e with
  | service => exact ⟨⟨Nat.le_refl _, Nat.le_refl _⟩, ⟨Nat.le_refl _, Nat.le_refl _⟩, ⟨Nat.le_refl _, Nat.le_refl _⟩,
      fun _ => ⟨Nat.le_refl _, Nat.le_refl _⟩⟩
  | setup => exact ⟨Nat.le_refl _, Nat.le_refl _⟩
  | packet p => exact ⟨Nat.le_refl _, Nat.le_refl _⟩
  | plain e =>
    change Reads t t e
    cases e <;> first | trivial | cases h

instance (late : Nat) (x : Clocked) (t : Nat) : Decidable (Starts late x t) := by
  unfold Starts; infer_instance

/-- The schedule after an event. -/
def reschedule (cfg : Config) (x : Clocked) (e : Event) (c' : Client) (now : Nat) : Nat :=
  if reevaluates cfg x.client e c' then
    reevaluate (match e with | .service _ => 0 | _ => x.scheduled) (c'.nextService cfg {} now) else
      (match e with | .service _ => 0 | _ => x.scheduled)

/-- One event. -/
def tstep (cfg : Config) (late : Nat) (x : Clocked) (t : Nat) (e : TEvent) : Option Clocked :=
  if Starts late x t ∧ Enabled x.client (e.at t) ∧ e.fine then
    match step cfg x.client (e.at t) with
    | .error _ => none
    | .ok c' => some ⟨c', t, reschedule cfg x (e.at t) c' t⟩
  else none

theorem tstep_step {cfg : Config} {late t : Nat} {x y : Clocked} {e : TEvent} (h : tstep cfg late x t e = some y) :
    Timed.Step cfg late x t (e.at t) y ∧ y.clock = t := by
  unfold tstep at h
  split at h
  · rename_i hx
    split at h
    · cases h
    · rename_i c' hs
      cases h
      exact ⟨.mk {} hx.1 hx.2.1 hs (fine_reads hx.2.2 t) (Nat.le_refl _) (Nat.le_refl _), rfl⟩
  · cases h

/-- A history, with a test of every event. -/
def trun (cfg : Config) (late : Nat) (ok : Clocked → Event → Clocked → Bool) (x : Clocked) :
    List (Nat × TEvent) → Option Clocked
  | [] => some x
  | (t, e) :: es =>
    match tstep cfg late x t e with
    | none => none
    | some y => if ok x (e.at t) y then trun cfg late ok y es else none

theorem trun_timed {cfg : Config} {late : Nat} {ok : Clocked → Event → Clocked → Bool} {x y : Clocked}
    {es : List (Nat × TEvent)} (h : trun cfg late ok x es = some y) (hx : Timed cfg late x) : Timed cfg late y := by
  induction es generalizing x with
  | nil => cases h; exact hx
  | cons a es ih =>
    rw [trun] at h
    split at h
    · cases h
    · rename_i z hz
      split at h
      · exact ih h (.step hx (tstep_step hz).1)
      · cases h

/-- A history that brings up a connection at time 1. -/
def tconnect (connack : ConnackView) : List (Nat × TEvent) :=
  [(1, .plain (.setDesired .connected none)), (1, .service), (1, .setup), (1, .service),
    (1, .plain (.writeComplete .success)), (1, .packet (.connack connack))]

end Mqtt.Client5
