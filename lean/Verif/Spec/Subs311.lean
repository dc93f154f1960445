import Verif.Subs311
import Verif.Spec.Topic

/-!
What the calls and packets of an MQTT 3.1.1 connection say about its subscriptions (C83, C84).
-/
namespace Mqtt.Subs311
open Mqtt Mqtt.Spec

/-- `$share/name/filter`: a shared subscription (MQTT 5, 4.8.2; brokers offer it for 3.1.1, too). -/
def Shared (name filter f : Bytes) : Prop :=
  f = [36, 115, 104, 97, 114, 101, 47] ++ name ++ 47 :: filter ∧ name ≠ [] ∧ 47 ∉ name ∧ filter ≠ []

/-- Begins with `$share/`. -/
def LooksShared (f : Bytes) : Prop := ∃ r, f = [36, 115, 104, 97, 114, 101, 47] ++ r

/-- What is known from a log: the calls, the requests whose packet was sent, and the subscriptions in effect with handler and
QoS. A subscription is in effect from its first SUBSCRIBE to the first UNSUBSCRIBE or SUBSCRIBE of another request for the same
filter. `updates` counts these packets. -/
structure Book where
  calls : List (Nat × Call) := []
  seen : List Nat := []
  subs : Bytes → Option (Nat × Nat) := fun _ => none
  updates : Nat := 0

/-- The subscriptions after a packet of this call; `key` tells which filters count as the same. -/
def after (key : Bytes → Option Bytes) (m : Bytes → Option (Nat × Nat)) : Call → Bytes → Option (Nat × Nat)
  | .subscribe fs => fs.foldl (fun m e f => if key e.1 = some f then some (e.2.2, e.2.1) else m f) m
  | .resubscribe => m
  | .unsubscribe g => fun f => if key g = some f then none else m f

def Book.packet (key : Bytes → Option Bytes) (b : Book) (id : Nat) : Book :=
  if id ∈ b.seen then b
  else match b.calls.lookup id with
    | none => { b with seen := id :: b.seen }
    | some .resubscribe => { b with seen := id :: b.seen }
    | some c => { b with seen := id :: b.seen, subs := after key b.subs c, updates := b.updates + 1 }

def Book.note (key : Bytes → Option Bytes) (b : Book) : Entry → Book
  | .called id c => { b with calls := (id, c) :: b.calls }
  | .sent id _ => b.packet key id
  | .sentUnsubscribe id _ => b.packet key id
  | _ => b

def book (key : Bytes → Option Bytes) (log : List Entry) : Book := log.foldl (Book.note key) {}

/-- The first packet of a request: a SUBSCRIBE lists no filter twice, and an UNSUBSCRIBE names a filter with no subscription
below it. -/
def TamePacket (key : Bytes → Option Bytes) (b : Book) (id : Nat) : Prop :=
  id ∉ b.seen →
    (∀ fs, b.calls.lookup id = some (.subscribe fs) → (fs.map fun e => key e.1).Nodup) ∧
    (∀ f k g x y, b.calls.lookup id = some (.unsubscribe f) → key f = some k → b.subs g ≠ none →
      ∀ ls, Levels k ls → Levels g (ls ++ x :: y) → False)

/-- A history in which this holds for every packet (the histories in which the table does not free strings it uses, C11). -/
def Tame (key : Bytes → Option Bytes) (log : List Entry) : Prop :=
  ∀ pre e post, log = pre ++ e :: post → match e with
    | .sent id _ => TamePacket key (book key pre) id
    | .sentUnsubscribe id _ => TamePacket key (book key pre) id
    | _ => True

/-- The first SUBSCRIBE for this topic could not be made. -/
def Lost (log : List Entry) (u : Nat) : Prop := ∃ id fs e, .called id (.subscribe fs) ∈ log ∧ e ∈ fs ∧ e.2.2 = u ∧ .unsent id ∈ log

/-- No call has a filter that begins with `$share/`. -/
def NoShared (log : List Entry) : Prop := ∀ id c, .called id c ∈ log → match c with
  | .subscribe fs => ∀ e ∈ fs, ¬ LooksShared e.1
  | .unsubscribe f => ¬ LooksShared f
  | .resubscribe => True

end Mqtt.Subs311
