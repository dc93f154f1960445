import Verif.Spec.Stream5
import Verif.Spec.Lru

/-!
What the topic alias options of the MQTT 5 client (mqtt5_client.h:56-158) are about: the aliases the server allows and the
topics published to.
-/
namespace Mqtt.Client5

open Mqtt.V5

def grantedOne (m : Nat) : Effect → Nat
  | .connected st => st.topicAliasMaximumToServer
  | _ => m

/-- How many aliases the server of the last connection allows. -/
def granted (log : List Effect) : Nat := log.foldl grantedOne 0

def publishedOne (ts : List Bytes) : Effect → List Bytes
  | .connected _ => []
  | .started _ (.publish v) _ => ts ++ [v.topic]
  | _ => ts

/-- The topics the user has published to on the last connection, in order. -/
def published (log : List Effect) : List Bytes := log.foldl publishedOne []

end Mqtt.Client5
