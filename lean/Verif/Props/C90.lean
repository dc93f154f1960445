import Verif.Lemmas.Cancel311
import Verif.Lemmas.Keep311

/-!
C90: 3.1.1 client: `disconnect` cancels all operations ("All uncompleted requests (publish/subscribe/unsubscribe) will be
cancelled, regardless to the status of clean_session", client.h:565-566).

Violated: `s_mqtt_client_shutdown` cancels operations only for a clean session, and only those it finds when the channel
is shut down; it keeps those of a persistent session, and those that are accepted while there is no channel.
-/
namespace Mqtt.Props
open Mqtt.Client311

variable {c d : Conn} {es : List Event} {n : Nat}

/-- With a clean session, an operation that waits for an acknowledgement or for a CONNACK when the user calls `disconnect`
while there is a channel, or that gets there before the channel is shut down: whatever happens, the connection is still
being disconnected or the operation is completed. (`C89_disconnect`: it does not stay so.) -/
theorem C90_cancelled_partial (h : Client311.Reachable (fun _ _ => True) c) (hst : c.state = .disconnecting)
    (hn : c.chan ≠ none) (hc : c.clean = true) {uid : Nat} (ha : wasAccepted c.log uid)
    (ht : uid ∉ c.tasks.map (·.1)) (r : Run c es n d) :
    d.state = .disconnecting ∨ completions d.log uid = 1 := by
  rcases r.doomed h ⟨hst, ht, .inl ⟨hn, hc⟩⟩ ha with k | k
  · exact .inl k.state
  · right
    obtain ⟨⟨done, e, hs⟩, _⟩ := (r.reachable h).inv.2
    rw [hs.once] at k ⊢
    split at k
    · next q => rw [if_pos q]
    · exact absurd rfl k

/-- Such an operation, and the history that completes it. -/
def C90_open : List Event :=
  [.connect true, .advance, .launch true, .setup .opened, .packet (.connack true), .create (.publish 1) 9,
   .run 0 (.ongoing false 0), .disconnect]

example : (after C90_open).state = .disconnecting ∧ (after C90_open).chan ≠ none ∧ (after C90_open).clean = true ∧
    (after C90_open).tasks = [] ∧ .accepted 0 1 (.publish 1) 9 ∈ (after C90_open).log ∧
    completions (after C90_open).log 0 = 0 := by decide +kernel

example : ∃ d, Run (after C90_open) [.disconnectTask, .shutdown, .advance, .advance] 4 d ∧
    decide (completions d.log 0 = 1 ∧ d.log.getLast? = some .disconnected) = true :=
  follow_any (by decide +kernel)

/-- With a persistent session `on_disconnect` is invoked and an operation that was in flight is not completed. -/
theorem C90_violated : ∃ c, Client311.Reachable (fun _ _ => True) c ∧ c.state = .disconnected ∧
    c.log.getLast? = some .disconnected ∧ Outstanding c.log 0 1 (.publish 1) 9 :=
  ⟨after [.connect false, .advance, .launch true, .setup .opened, .packet (.connack true), .create (.publish 1) 9,
      .run 0 (.ongoing false 0), .disconnect, .disconnectTask, .shutdown, .advance], reachable_after _, by decide +kernel,
    by decide +kernel, by decide +kernel, by decide +kernel⟩

/-- **Persistent sessions cancel nothing.** From a connection with a persistent session whose event loop is not in the middle
of something, whatever happens (`disconnect` included) until the next `connect` with a clean session: no operation is
completed because its session ends. -/
theorem C90_kept (hc : c.clean = false) (hb : c.busy = .idle) (r : Run c es n d) (he : .connect true ∉ es) {uid : Nat}
    (hx : .completed uid .cleanSession ∈ d.log) : .completed uid .cleanSession ∈ c.log :=
  (r.spares (old := c.log) ⟨hc, (by rw [hb]; nofun), fun _ => id⟩ he).log uid hx

/-- A connection whose sessions are all persistent never completes an operation for this reason. -/
theorem C90_never (h : Client311.Reachable (fun _ e => e ≠ .connect true) c) (uid : Nat) :
    .completed uid .cleanSession ∉ c.log := fun hx => by
  have := (reachable_spares h).log uid hx
  cases this

/-- A connection with a persistent session and an operation in flight, and a history in which it is disconnected. -/
def C90_persistent : List Event :=
  [.connect false, .advance, .launch true, .setup .opened, .packet (.connack true), .create (.publish 1) 9,
   .run 0 (.ongoing false 0)]

example : (after C90_persistent).clean = false ∧ (after C90_persistent).busy = .idle ∧
    Outstanding (after C90_persistent).log 0 1 (.publish 1) 9 ∧
    ∃ d, Run (after C90_persistent) [.disconnect, .disconnectTask, .shutdown, .advance] 3 d ∧
      decide (d.log.getLast? = some .disconnected) = true :=
  ⟨by decide +kernel, by decide +kernel, ⟨by decide +kernel, by decide +kernel⟩, follow_any (by decide +kernel)⟩

/-- With a clean session, likewise for an operation that was accepted while the connection was interrupted. -/
theorem C90_violated_clean : ∃ c, Client311.Reachable (fun _ _ => True) c ∧ c.state = .disconnected ∧ c.clean = true ∧
    c.log.getLast? = some .disconnected ∧ Outstanding c.log 0 1 (.publish 1) 9 :=
  ⟨after [.connect true, .advance, .launch true, .setup .opened, .packet (.connack true), .close, .shutdown, .advance,
      .advance, .create (.publish 1) 9, .disconnect, .attempt true], reachable_after _, by decide +kernel,
    by decide +kernel, by decide +kernel, by decide +kernel, by decide +kernel⟩

/-- With a clean session and a channel, likewise for a QoS 1 publish whose outgoing task is cancelled after the channel was shut
down, as it is when `mqtt_create_request` schedules it that late (ch 998-1006): the task puts it among the pending requests, which
have been cancelled already (ch 755-778). -/
theorem C90_violated_task : ∃ c, Client311.Reachable (fun _ _ => True) c ∧ c.state = .disconnected ∧ c.clean = true ∧
    .disconnected ∈ c.log ∧ c.tasks = [] ∧ c.pending = [0] ∧ Outstanding c.log 0 1 (.publish 1) 9 :=
  ⟨after [.connect true, .advance, .launch true, .setup .opened, .packet (.connack true), .create (.publish 1) 9, .disconnect,
      .disconnectTask, .shutdown, .advance, .cancel 0], reachable_after _, by decide +kernel, by decide +kernel,
    by decide +kernel, by decide +kernel, by decide +kernel, by decide +kernel, by decide +kernel⟩

/-- **An interrupted connection cancels nothing, whatever its session.** When the reconnect task invokes `on_disconnect` for a
`disconnect` and the connection is not destroyed by it, no operation is completed. -/
theorem C90_interrupted {ok : Bool} (hst : c.state = .disconnecting) (hs : Client311.step c (.attempt ok) = .ok d)
    (hd : d.destroyed = false) (uid : Nat) : completions d.log uid = completions c.log uid ∧
      (c.slot = false → d.state = .disconnected ∧ d.log = c.log ++ [.disconnected]) := by
  have hs : c.attempt ok = .ok d := hs
  unfold Conn.attempt at hs
  rw [if_pos hst] at hs
  simp only at hs
  split at hs
  · next k => cases hs; exact ⟨rfl, fun h => by simp_all⟩
  · unfold Conn.release at hs
    split at hs
    · split at hs
      · cases hs; cases hd
      · cases hs
    · cases hs; exact ⟨by simp [completions, isCompletion], fun _ => ⟨rfl, rfl⟩⟩

/-- Such a connection, of a clean session, with an operation that waits. -/
def C90_waiting : List Event :=
  [.connect true, .advance, .launch true, .setup .opened, .packet (.connack true), .close, .shutdown, .advance, .advance,
   .create (.publish 1) 9, .disconnect]

example : (after C90_waiting).state = .disconnecting ∧ (after C90_waiting).slot = false ∧
    Outstanding (after C90_waiting).log 0 1 (.publish 1) 9 ∧
    ∃ d, Run (after C90_waiting) [.attempt true] 1 d ∧ decide (d.destroyed = false) = true :=
  ⟨by decide +kernel, by decide +kernel, ⟨by decide +kernel, by decide +kernel⟩, follow_any (by decide +kernel)⟩

end Mqtt.Props
