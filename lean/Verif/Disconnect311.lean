import Verif.Client311

/-!
`aws_mqtt_client_connection_disconnect` of a 3.1.1 connection while other threads run (/repo/source/client.c:1983-2018 and
`mqtt_disconnect_impl`, client_channel_handler.c:1104-1114). In `Verif/Client311.lean` a call is one step. Here it is what it is
for a caller that is not on the event loop: a critical section, a test of `connection->slot`, and the use of `connection->slot->channel`,
which are not protected by the lock. One thread makes such calls; calls on the event loop are the event `disconnect` of
`Verif/Client311.lean`.
-/
namespace Mqtt.Disconnect311

open Mqtt.Client311

/-- Where the call is. -/
inductive Call where
  | none
  /-- The critical section is done (1992-2010). -/
  | locked
  /-- `connection->slot` was not NULL (ch 1105). -/
  | tested
deriving DecidableEq, Repr

structure World where
  conn : Conn := {}
  call : Call := .none
  /-- The channel the handler was installed in when the call was accepted. -/
  aim : Option Nat := none
  /-- Since then, that channel has been shut down or `on_disconnect` been called. -/
  over : Bool := false
  /-- For each task that was scheduled: the channel it was scheduled on and the one it was meant for. -/
  scheduled : List (Nat × Option Nat) := []
deriving DecidableEq, Repr

inductive Event where
  | base (e : Client311.Event)
  | lock
  | test
  | use
deriving DecidableEq, Repr

/-- The caller holds a reference during the call. -/
def Enabled (w : World) : Event → Bool
  | .base e => Client311.Enabled w.conn e && (e ≠ .release || w.call = .none || w.conn.held ≥ 2)
  | .lock => w.call = .none ∧ w.conn.held ≠ 0
  | .test => w.call = .locked
  | .use => w.call = .tested

def step (w : World) : Event → Except Fault World
  | .base e =>
    match Client311.step w.conn e with
    | .error f => .error f
    | .ok c => .ok { w with conn := c, over := w.over || e = .shutdown || c.state = .disconnected }
  | .lock =>                                                                                      -- 1992-2010
    if w.conn.state = .connected ∨ w.conn.state = .reconnecting then
      .ok { w with
        conn := { w.conn with state := .disconnecting }
        call := .locked
        aim := if w.conn.slot then w.conn.chan else none
        over := false }
    else .ok w
  | .test => .ok { w with call := if w.conn.slot then .tested else .none }                        -- ch 1105
  | .use =>                                                                                       -- ch 1106-1110
    if w.conn.slot then
      .ok { w with
        conn := { w.conn with disconnectTask := true }
        call := .none
        scheduled := w.scheduled ++ w.conn.chan.toList.map (·, w.aim) }
    else .error .memory

/-- Histories without a fault; each event is allowed by `allowed`. -/
inductive Reachable (allowed : World → Event → Prop) : World → Prop where
  | init : Reachable allowed {}
  | step {w w' : World} {e : Event} : Reachable allowed w → w.conn.destroyed = false → Enabled w e = true → allowed w e →
    step w e = .ok w' → Reachable allowed w'

end Mqtt.Disconnect311
