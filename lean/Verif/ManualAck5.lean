import Verif.Client5

/-!
What `aws_mqtt5_client_invoke_publish_acknowledgement` reports: the completion callback of an invocation
(source/v5/mqtt5_client.c, source/v5/mqtt5_options_storage.c). The client itself is `Verif/Client5.lean`; here is, beside it,
which PUBACK operation carries the completion options of which invocation and what the callbacks are called with.

An invocation is numbered when its task runs (`Event.invoke`). Every invocation has a completion callback; without one the
code does the same and calls nothing (2578, options_storage.c:2310). A task that is cancelled because the event loop goes away
calls nothing (2511-2513) and is no event.
-/
namespace Mqtt.ManualAck5

open Mqtt.Client5

/-- `enum aws_mqtt5_manual_publish_acknowledgement_result` (include/aws/mqtt/v5/mqtt5_types.h:147-152). -/
inductive Result where
  | success
  | cancelled
  | invalid
  | failure
deriving DecidableEq, Repr

/-- The result `s_mqtt5_manual_pub_ack_task_fn` (2504-2586) gives at once; `none` if it leaves that to the PUBACK operation.
Making the operation does not fail. -/
def verdict (s : OpState) (ctl : Nat) : Option Result :=
  if (s.manualCtl.get ctl).isSome then none                                        -- 2523-2549
  else if s.cancelled.contains ctl then some .cancelled                            -- 2552-2567
  else some .invalid                                                               -- 2574

/-- `s_aws_mqtt5_operation_puback_manual_completion` (options_storage.c:2294-2325). -/
def converted (e : Error) : Result := if e = .success then .success else .failure

structure Book where
  /-- The controls invoked, in order. -/
  calls : List Nat := []
  /-- PUBACK operations with completion options, and the number of the invocation these belong to. -/
  ops : List (Nat × Nat) := []
  /-- Calls of completion callbacks: which invocation, and the result. -/
  answers : List (Nat × Result) := []
deriving DecidableEq, Repr

/-- An operation completes: `completion_options` of a PUBACK operation are those given to
`s_aws_mqtt5_client_queue_puback` (1868-1903), none for an automatic PUBACK (1954). -/
def Book.effect (b : Book) : Effect → Book
  | .completed u _ e _ => { b with answers := b.answers ++ (b.ops.filter (·.1 == u)).map fun o => (o.2, converted e) }
  | _ => b

/-- The task of an invocation runs. -/
def Book.event (b : Book) (c : Client) : Event → Book
  | .invoke ctl =>
    match verdict c.ops ctl with
    | none => { b with calls := b.calls ++ [ctl], ops := b.ops ++ [(c.ops.nextUid, b.calls.length)] }
    | some r => { b with calls := b.calls ++ [ctl], answers := b.answers ++ [(b.calls.length, r)] }
  | _ => b

/-- An event that takes the client from `c` to `c'`. -/
def Book.next (b : Book) (c : Client) (e : Event) (c' : Client) : Book :=
  (c'.ops.log.drop c.ops.log.length).foldl Book.effect (b.event c e)

/-- Histories of a client, with its book. -/
inductive Reachable (cfg : Config) : Client → Book → Prop where
  | new : Reachable cfg (Client.new cfg) {}
  | step {c c' : Client} {b : Book} {e : Event} : Reachable cfg c b → Enabled c e → step cfg c e = .ok c' →
      Reachable cfg c' (b.next c e c')

end Mqtt.ManualAck5
