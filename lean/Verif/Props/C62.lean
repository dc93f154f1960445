import Verif.Lemmas.Client311Brief

/-! C62: 3.1.1 client: a publish with QoS 0 is sent at most once and does not outlive its channel. -/
namespace Mqtt.Props
open Mqtt.Client311

variable {allowed : Conn → Event → Prop} {c : Conn}

/-- A publish with QoS 0 is refused when the client is not connected. -/
theorem C62_refused (size : Nat) (hs : c.state ≠ .connected) :
    ∃ why, Client311.step c (.create (.publish 0) size) = .ok { c with log := c.log ++ [.refused why] } := by
  simp only [Client311.step]
  generalize hx : c.create (.publish 0) size = x
  rcases create_cases hx with ⟨e, _⟩ | ⟨e, _⟩ | ⟨r, _, ⟨_, e⟩ | ⟨_, _, hr, _⟩⟩
  · exact ⟨_, e⟩
  · exact ⟨_, e⟩
  · exfalso
    simp only [Conn.create, Kind.retryable] at hx
    rw [e] at hx
    by_cases hd : c.state = .disconnecting
    · simp [hd, Conn.tell] at hx
    · simp [hd, hs, Conn.tell] at hx
  · exact absurd (hr rfl) hs

/-- It is sent at most once on all channels together, and without the flag DUP. -/
theorem C62_once (h : Client311.Reachable allowed c) {pre post : List Trace} {uid chan id size : Nat} {dup : Bool}
    (ha : .accepted uid id (.publish 0) size ∈ c.log) (e : c.log = pre ++ .sent uid chan dup :: post) :
    dup = false ∧ ∀ m, ¬ SentOn pre uid m := by
  have h1 := h.brief_once ha rfl e
  refine ⟨?_, h1⟩
  cases hd : dup with
  | false => rfl
  | true =>
    obtain ⟨m, hm⟩ := (h.dup e).1 hd
    exact absurd hm (h1 m)

/-- When it has been sent it is complete. -/
theorem C62_sent (h : Client311.Reachable allowed c) {uid chan id size : Nat}
    (ha : .accepted uid id (.publish 0) size ∈ c.log) (hs : SentOn c.log uid chan) : completions c.log uid ≠ 0 :=
  fun hc => (h.brief_task ⟨ha, hc⟩ rfl).2 chan hs

/-- Until then it is in an outgoing task of a channel. Running the task completes it, with
success if it has been sent. Once the channel is gone the task is due to be cancelled, which completes it with
AWS_ERROR_MQTT_NOT_CONNECTED. -/
theorem C62_waits (h : Client311.Reachable allowed c) {uid id size : Nat}
    (ho : Outstanding c.log uid id (.publish 0) size) :
    ∃ k chan, c.tasks[k]? = some (uid, chan) ∧
      (∀ result c', Client311.Enabled c (.run k result) = true → Client311.step c (.run k result) = .ok c' →
        c'.log = c.log ++ [.sent uid chan false, .completed uid .success] ∨ c'.log = c.log ++ [.completed uid .failed]) ∧
      (c.chan ≠ some chan → Client311.Enabled c (.cancel k) = true) ∧
      (∀ c', Client311.step c (.cancel k) = .ok c' → c'.log = c.log ++ [.completed uid .notConnected]) := by
  obtain ⟨⟨n, hn⟩, _⟩ := h.brief_task ho rfl
  obtain ⟨hl, _, r, hr, _, e, _⟩ := h.outstanding ho
  have hf := h.brief.fresh uid r hr (by rw [e]; rfl)
  obtain ⟨k, hk⟩ := List.mem_iff_getElem?.1 hn
  refine ⟨k, n, hk, ?_, ?_, ?_⟩
  · intro result c' he hs
    simp only [Client311.step, hk, Except.ok.injEq] at hs
    subst hs
    simp only [Client311.Enabled, hk, hr, e, Bool.and_eq_true] at he
    cases result with
    | ongoing t m => simp [Kind.mayReturn] at he
    | error =>
      refine .inr ?_
      simp [Conn.send, hr, complete_log]
    | complete =>
      refine .inl ?_
      simp [Conn.send, hr, e, hf, complete_log, Conn.tell]
  · intro hc
    simp only [Client311.Enabled, hk, decide_eq_true_eq]
    exact .inl fun h => hc h.symm
  · intro c' hs
    simp only [Client311.step, hk, Except.ok.injEq] at hs
    subst hs
    simp [Conn.cancelled, hr, e, Kind.retryable, complete_log]

/-- Three publishes with QoS 0. The first is sent. The channel of the second is lost before its task runs, and the third
comes while the client reconnects. -/
def C62_history : List Event :=
  [.connect false, .advance, .launch true, .setup .opened, .packet (.connack true), .create (.publish 0) 10,
   .run 0 .complete, .create (.publish 0) 11, .close, .cancel 0, .shutdown, .advance, .advance, .create (.publish 0) 12,
   .attempt true, .setup .opened, .packet (.connack true)]

example : (after C62_history).log = [.connecting, .opened 0, .processed 0 (.connack true), .connectionComplete true,
    .accepted 0 1 (.publish 0) 10, .sent 0 0 false, .completed 0 .success, .accepted 1 2 (.publish 0) 11,
    .completed 1 .notConnected, .interrupted, .refused .notConnected, .opened 1, .processed 1 (.connack true),
    .resumed] := by decide +kernel

end Mqtt.Props
