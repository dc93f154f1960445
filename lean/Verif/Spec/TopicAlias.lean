import Verif.Basic

/-! MQTT 5, section 3.3.2.3.4: how a server reads topic and topic alias of the PUBLISH packets of one
network connection. -/
namespace Mqtt.Spec

/-- The maximum the server announced and the mappings it holds. -/
structure AliasServer where
  max : Nat
  known : Nat → Option Bytes

/-- A server on a new network connection. -/
def AliasServer.fresh (max : Nat) : AliasServer := { max, known := fun _ => none }

/-- One PUBLISH; `none` is a protocol error, otherwise the topic it is for. -/
def AliasServer.receive (s : AliasServer) (topic : Bytes) : Option Nat → Option (AliasServer × Bytes)
  | none => if topic = [] then none else some (s, topic)
  | some a =>
    if a = 0 ∨ a > s.max then none
    else if topic = [] then (s.known a).map fun t => (s, t)
    else some ({ s with known := fun b => if b = a then some topic else s.known b }, topic)

end Mqtt.Spec
