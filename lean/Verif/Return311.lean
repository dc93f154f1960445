import Verif.Client311

/-!
The packet identifier that `publish`, `subscribe`, `unsubscribe` and `resubscribe_existing_topics` of a 3.1.1 connection return
(/repo/source/client_channel_handler.c:874-1011). In `Verif/Client311.lean` `mqtt_create_request` is one step. Here its last statement
(1010) is a step of its own: it reads the identifier from the request, after the lock has been released (996) and the outgoing task
scheduled (1005), so that other threads may have completed and freed the request. Any number of threads make such calls.
-/
namespace Mqtt.Return311

open Mqtt.Client311

structure World where
  conn : Conn := {}
  /-- Calls that have not returned: their requests. -/
  calls : List Nat := []
  /-- Calls that have returned: their requests, and what was returned. -/
  returned : List (Nat × Nat) := []
deriving DecidableEq, Repr

inductive Event where
  /-- An event of the connection; `create` is everything `mqtt_create_request` does before it returns. -/
  | base (e : Client311.Event)
  /-- A call returns (1010). -/
  | ret (k : Nat)
deriving DecidableEq, Repr

def Enabled (w : World) : Event → Bool
  | .base e => Client311.Enabled w.conn e
  | .ret k => k < w.calls.length

/-- The call goes on with its request if it has made one; otherwise it has returned 0. -/
def called (c c' : Conn) : Client311.Event → List Nat
  | .create .. => if c'.nextUid = c.nextUid then [] else [c.nextUid]
  | _ => []

def step (w : World) : Event → Except Fault World
  | .base e =>
    match Client311.step w.conn e with
    | .error f => .error f
    | .ok c => .ok { w with conn := c, calls := w.calls ++ called w.conn c e }
  | .ret k =>
    match w.calls[k]? with
    | none => .ok w
    | some uid =>
      match w.conn.reqs.get uid with
      | none => .error .memory
      | some r => .ok { w with calls := w.calls.eraseIdx k, returned := w.returned ++ [(uid, r.id)] }

/-- Histories without a fault. -/
inductive Reachable : World → Prop where
  | init : Reachable {}
  | step {w w' : World} {e : Event} : Reachable w → w.conn.destroyed = false → Enabled w e = true →
    step w e = .ok w' → Reachable w'

end Mqtt.Return311
