import Verif.Spec.View5
import Verif.Spec.TopicAlias
import Verif.Client5

/-!
What the other end of a connection of the MQTT 5 client reads.
-/
namespace Mqtt.Spec5

open Mqtt.Spec

/-- The Topic Alias property (3.3.2.3.4). -/
def aliasIn (x : Property) : Option Nat :=
  match x.value with
  | .num n => if x.id = 35 then some n else none
  | _ => none

/-- The topic alias of a PUBLISH. -/
def topicAliasOf (q : Publish) : Option Nat := q.props.findSome? aliasIn

/-- A server reads one packet. A PUBLISH is for the topic its alias stands for; it is given without alias. -/
def serve (s : AliasServer) (w : Bytes) : Option (AliasServer × Packet) :=
  match packet w with
  | none => none
  | some (.publish q) =>
    (s.receive q.topic (topicAliasOf q)).map fun r =>
      (r.1, .publish { q with topic := r.2, props := q.props.filter fun x => x.id ≠ 35 })
  | some p => some (s, p)

/-- A server reads packets one after the other. -/
def listen (s : AliasServer) : List Bytes → Option (AliasServer × List Packet)
  | [] => some (s, [])
  | w :: ws => (serve s w).bind fun x => (listen x.1 ws).map fun y => (y.1, x.2 :: y.2)

/-- `ws` are the packets at the beginning of the stream `bs`. -/
def Begins (bs : Bytes) (ws : List Bytes) : Prop := (∀ w ∈ ws, packet w ≠ none) ∧ ws.flatten <+: bs

end Mqtt.Spec5

namespace Mqtt.Client5

open Mqtt.V5 Mqtt.Spec Mqtt.Spec5

def recentOne (l : List Effect) : Effect → List Effect
  | .disconnected => []
  | e => l ++ [e]

/-- The effects since the last connection or attempt to connect was over. -/
def recent (log : List Effect) : List Effect := log.foldl recentOne []

/-- The packets whose sending has begun, as they are to be written, in order. -/
def wires (l : List Effect) : List Bytes :=
  l.filterMap fun
    | .started _ _ w => some w
    | _ => none

/-- The same as the operations hold them. -/
def begun (l : List Effect) : List Outgoing :=
  l.filterMap fun
    | .started _ p _ => some p
    | _ => none

/-- All that has been handed to the channel. -/
def written (l : List Effect) : Bytes :=
  (l.filterMap fun
    | .wrote d => some d
    | _ => none).flatten

/-- What the other end knows of topic aliases: nothing when it accepts a connection, and what it learns from packets. -/
def hear (s : AliasServer) : Effect → AliasServer
  | .connected settings => .fresh settings.topicAliasMaximumToServer
  | .started _ _ w => ((serve s w).map (·.1)).getD s
  | _ => s

def hearing (log : List Effect) : AliasServer := log.foldl hear (.fresh 0)

/-- Numbers are in the range of their C types; packets that are not made from what the user submits are within the
limits of MQTT 5. -/
def Representable : Outgoing → Prop
  | .publish v => v.packetId < 65536 ∧ OptLt 4294967296 v.messageExpiry ∧ OptLt 65536 v.topicAlias
  | .subscribe v => v.packetId < 65536
  | .unsubscribe v => v.packetId < 65536
  | p => Fits p

/-- All packets begun are representable. -/
def AllRep (log : List Effect) : Prop := ∀ u p w, Effect.started u p w ∈ log → Representable p

/-- What the option for outbound topic aliases (mqtt5_client.h:56-98) says of the alias sent: with `disabled` there is none,
with `manual` it is the user's, with `lru` it is up to the client. -/
def Obeys (b : TopicAlias.Behavior) (user sent : Option Nat) : Prop :=
  match b with
  | .disabled => sent = none
  | .manual => sent = user
  | .lru => True

/-- Without topic alias. -/
def unaliased : Outgoing → Outgoing
  | .publish v => .publish { v with topicAlias := none }
  | p => p

end Mqtt.Client5
