import Verif.Client311
import Verif.Listener311

/-!
Which events of an MQTT 3.1.1 connection are passed on to its listeners: the calls of `aws_mqtt311_callback_set_manager_on_…` in
/repo/source/client.c and client_channel_handler.c (line numbers of client.c unless marked "ch"). What listeners do with an event
that is passed on is in `Verif/Listener311.lean`.
-/
namespace Mqtt.Client311

/-- The handlers of listeners that are called in an event of the connection, in order. There are no other calls of the callback
set manager; in particular `s_attempt_reconnect` (722-804) has none. -/
def passed (c : Conn) : Event → List Listener311.Kind
  | .packet (.connack true) =>
    if c.state = .disconnecting ∨ c.state = .disconnected then [] else [.success]                 -- ch 146-274; ch 266-267
  | .packet (.publish _ _) => if c.state = .connecting then [] else [.publish]                    -- ch 276-300; ch 297-298
  | .advance => match c.busy with
    | .cancelling _ [] (.shutdown .connected) => [.interrupted]                                   -- 404-405
    | .cancelling _ [] (.shutdown .disconnecting) => [.disconnect]                                -- 451-453
    | .interrupted => if c.state = .disconnecting then [.disconnect] else []                      -- 442-444
    | _ => []
  | _ => []

/-- Histories of a connection without a fault, with the handlers of its listeners that are called. -/
inductive Heard (allowed : Conn → Event → Prop) : Conn → List Listener311.Kind → Prop where
  | init : Heard allowed {} []
  | step {c c' : Conn} {e : Event} {l : List Listener311.Kind} : Heard allowed c l → c.destroyed = false →
    Enabled c e = true → allowed c e → Client311.step c e = .ok c' → Heard allowed c' (l ++ passed c e)

end Mqtt.Client311
