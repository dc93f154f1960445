import Verif.KeepAlive311

/-! What is seen of time on a channel of an MQTT 3.1.1 connection, in terms of what was sent and received and when. -/
namespace Mqtt.KeepAlive311

/-- The time of a packet that tells the server that the client is there, or of the acceptance of the connection. -/
def Entry.sign : Entry → Option Nat
  | .accepted t => some t
  | .sent t => some t
  | .ping t => some t
  | _ => none

/-- The time of a packet the client sends. -/
def Entry.packet : Entry → Option Nat
  | .connect t => some t
  | .sent t => some t
  | .ping t => some t
  | _ => none

def Entry.isSkipped : Entry → Bool
  | .skipped _ => true
  | _ => false

def Entry.isPing : Entry → Bool
  | .ping _ => true
  | _ => false

def Entry.isPingresp : Entry → Bool
  | .pingresp _ => true
  | _ => false

def Entry.isAccepted : Entry → Bool
  | .accepted _ => true
  | _ => false

/-- Times in order, each at most `d` after the one before. -/
def Within (d : Nat) : List Nat → Prop
  | s :: t :: l => s ≤ t ∧ t ≤ s + d ∧ Within d (t :: l)
  | _ => True

/-- Times in order, each at least `d` after the one before. -/
def Apart (d : Nat) : List Nat → Prop
  | s :: t :: l => s + d ≤ t ∧ Apart d (t :: l)
  | _ => True

end Mqtt.KeepAlive311
