import Verif.Lemmas.Progress311Run

/-!
C89: 3.1.1 client: a connection always gets on; `connect` and `disconnect` are answered after a bounded number of steps,
and a connection that is no longer used is destroyed.

The last part is violated: `connect` takes a reference of its own, which is given back only when the connection is
disconnected. A connection whose user releases it while it is established is not disconnected by that (the code of
`s_mqtt_client_connection_start_destroy` that would do it is never reached); it stays connected, and reconnects, for good.
-/
namespace Mqtt.Props
open Mqtt.Client311

variable {c d : Conn} {es : List Event} {n : Nat}

/-- Unless it is disconnected, something carries the connection on that needs neither the user nor the server: it is
not stuck. The end of a channel has to be waited for only if MQTT is spoken on it and the user has not called
`disconnect`. -/
theorem C89_goesOn {allowed : Conn → Event → Prop} (h : Client311.Reachable allowed c) (hd : c.state ≠ .disconnected) :
    ∃ e c', e.moves c = true ∧ Enabled c e = true ∧ Client311.step c e = .ok c' ∧
      (e = .close → c.state ≠ .disconnecting ∧ c.slot = true) := h.next hd

/-- Whatever happens after a `disconnect` that was accepted: either `on_disconnect` has been invoked, or the connection
is still being disconnected and there have been less than `enough` of the steps that carry it on. -/
theorem C89_disconnect (h : Client311.Reachable (fun _ _ => True) c) (hst : c.state = .disconnecting) (r : Run c es n d) :
    (∃ l, d.log = c.log ++ l ∧ .disconnected ∈ l) ∨ (d.state = .disconnecting ∧ n < c.enough es) := by
  rcases r.rank h (by simp [hst]) (by simp [hst]) (by simp [hst]) with ⟨ks, k, _⟩ | ⟨d1, d2, e, _, h1, h2, h3, h4, h5⟩
  · have := rank_le c
    have := rank_pos d
    refine .inr ⟨ks.trans hst, ?_⟩
    unfold Conn.enough
    omega
  · rw [hst] at h2
    cases h4 with
    | connect _ _ q => rw [h2] at q; cases q
    | refused _ q => exact absurd (h3 (by
        cases hb : c.busy.inConnect with
        | false => rfl
        | true => have := (h.inv.1.conn hb).1; rw [hst] at this; cases this)) (by simp [q])
    | answered _ _ q => rw [h2] at q; cases q
    | lost _ q => rw [h2] at q; cases q
    | resumed _ q => rw [h2] at q; cases q
    | disconnect _ q => rw [h2] at q; rcases q with q | q <;> cases q
    | ended l _ k m => exact .inl (Left.told h1 k m h5)

/-- Likewise for `on_connection_complete` after `connect`, unless it returns an error. -/
theorem C89_connect (h : Client311.Reachable (fun _ _ => True) c) (hst : c.state = .connecting) (r : Run c es n d) :
    (∃ l ok, d.log = c.log ++ l ∧ .connectionComplete ok ∈ l) ∨ (c.busy.inConnect = true ∧ .launch false ∈ es) ∨
    (d.state = .connecting ∧ n < c.enough es) := by
  rcases r.rank h (by simp [hst]) (by simp [hst]) (by simp [hst]) with ⟨ks, k, _⟩ | ⟨d1, d2, e, he, h1, h2, h3, h4, h5⟩
  · have := rank_le c
    have := rank_pos d
    refine .inr (.inr ⟨ks.trans hst, ?_⟩)
    unfold Conn.enough
    omega
  · rw [hst] at h2
    cases h4 with
    | connect _ _ q => rw [h2] at q; cases q
    | refused q1 q2 =>
      refine .inr (.inl ⟨?_, q1 ▸ he⟩)
      cases hb : c.busy.inConnect with
      | true => rfl
      | false => rw [h3 hb] at q2; cases q2
    | answered ok l _ k m =>
      obtain ⟨l, k⟩ := Left.told h1 k m h5
      exact .inl ⟨l, ok, k⟩
    | lost _ q => rw [h2] at q; cases q
    | resumed _ q => rw [h2] at q; cases q
    | disconnect _ q => rw [h2] at q; rcases q with q | q <;> cases q
    | ended l q => rw [h2] at q; cases q

/-- Likewise for the next attempt to reconnect of a connection that is interrupted, unless it has been resumed or the user
has called `disconnect`. -/
theorem C89_reconnect (h : Client311.Reachable (fun _ _ => True) c) (hst : c.state = .reconnecting) (r : Run c es n d) :
    (∃ ok, .attempt ok ∈ es) ∨ (∃ l, d.log = c.log ++ l ∧ .resumed ∈ l) ∨ .disconnect ∈ es ∨
    (d.state = .reconnecting ∧ n < c.enough es) := by
  by_cases ha : ∃ ok, .attempt ok ∈ es
  · exact .inl ha
  right
  rcases r.rank h (by simp [hst]) (fun _ ok m => ha ⟨ok, m⟩) (by simp [hst]) with
    ⟨ks, k, _⟩ | ⟨d1, d2, e, he, h1, h2, h3, h4, h5⟩
  · have := rank_le c
    have := rank_pos d
    refine .inr (.inr ⟨ks.trans hst, ?_⟩)
    unfold Conn.enough
    omega
  · rw [hst] at h2
    cases h4 with
    | connect _ _ q => rw [h2] at q; cases q
    | refused _ q => exact absurd (h3 (by
        cases hb : c.busy.inConnect with
        | false => rfl
        | true => have := (h.inv.1.conn hb).1; rw [hst] at this; cases this)) (by simp [q])
    | answered _ _ q => rw [h2] at q; cases q
    | lost _ q => rw [h2] at q; cases q
    | resumed l _ k m => exact .inl (Left.told h1 k m h5)
    | disconnect q => exact .inr (.inl (q ▸ he))
    | ended l q => rw [h2] at q; cases q

/-- A connection that is being disconnected and has been released gets destroyed: there are never `enough` steps, and as
long as it is not destroyed there is a next one. -/
theorem C89_destroyed_partial (h : Client311.Reachable (fun _ _ => True) c) (hst : c.state = .disconnecting)
    (hh : c.held = 0) (r : Run c es n d) (ha : ∀ e ∈ es, e.isCall = false) :
    n < c.enough es ∧ (d.destroyed = true ∨ ∃ e d', e.moves d = true ∧ e ≠ .close ∧ Enabled d e = true ∧
      Client311.step d e = .ok d') := by
  obtain ⟨_, h1, h2⟩ := r.ending h hst hh ha
  have := rank_le c
  refine ⟨by unfold Conn.enough; omega, ?_⟩
  rcases h2 with ⟨h2, _⟩ | h2
  · obtain ⟨e, d', k1, k2, k3, k4⟩ := (r.reachable h).next (by simp [h2])
    exact .inr ⟨e, d', k1, fun q => (k4 q).1 h2, k2, k3⟩
  · exact .inl h2

/-- Without calls of the user a connection that has been established goes on for good: it is connected or reconnecting
and not destroyed. -/
theorem C89_kept (h : Client311.Reachable (fun _ _ => True) c) (hst : c.state = .connected ∨ c.state = .reconnecting)
    (r : Run c es n d) (ha : ∀ e ∈ es, e.isCall = false) :
    d.destroyed = false ∧ (d.state = .connected ∨ d.state = .reconnecting) := by
  have k := r.kept h hst ha
  refine ⟨?_, k⟩
  cases hd : d.destroyed with
  | false => rfl
  | true =>
    have := (r.reachable h).gone hd
    rw [this] at k
    rcases k with k | k <;> cases k

def C89_established : List Event :=
  [.connect false, .advance, .launch true, .setup .opened, .packet (.connack true), .release]

/-- A connection that is released while it is established is never destroyed: nothing that happens without a call of
its user, who has no reference to it any more, ends it. -/
theorem C89_violated : ∃ c, Client311.Reachable (fun _ _ => True) c ∧ c.held = 0 ∧ c.state = .connected ∧
    ∀ es n d, Run c es n d → (∀ e ∈ es, e.isCall = false) →
      d.destroyed = false ∧ (d.state = .connected ∨ d.state = .reconnecting) :=
  ⟨after C89_established, reachable_after _, by decide +kernel, by decide +kernel, fun _ _ _ r ha =>
    C89_kept (reachable_after _) (.inl (by decide +kernel)) r ha⟩

/-- `disconnect` while the connection is established and a publish is in flight, with a clean session: three steps and
one for the publish. -/
example : ∃ d, Run (after [.connect true, .advance, .launch true, .setup .opened, .packet (.connack true),
    .create (.publish 1) 9, .run 0 (.ongoing false 0), .disconnect]) [.disconnectTask, .shutdown, .advance, .advance] 4 d ∧
    decide (.disconnected ∈ d.log ∧ d.state = .disconnected) = true :=
  follow_any (by decide +kernel)

/-- Two `connect`s are answered: the first fails, the second gets no CONNACK in time. -/
example : ∃ d, Run (after [.connect false]) [.advance, .launch true, .setup .failed, .advance, .connect false, .advance,
    .launch true, .setup .opened, .close, .shutdown, .advance] 10 d ∧
    decide (d.log.count (.connectionComplete false) = 2) = true :=
  follow_any (by decide +kernel)

/-- A connection that is interrupted, and fails to reconnect, is disconnected and released: it is destroyed. -/
example : ∃ d, Run (after [.connect false, .advance, .launch true, .setup .opened, .packet (.connack true), .close,
      .shutdown, .advance, .advance, .attempt false, .disconnect, .release]) [.attempt true] 1 d ∧ d.destroyed = true :=
  follow_any (by decide +kernel)

/-- It is interrupted and attempts to reconnect, twice. -/
example : ∃ d, Run (after C89_established) [.close, .shutdown, .advance, .advance, .attempt true, .setup .failed, .advance,
    .attempt true] 8 d ∧ decide (d.state = .reconnecting ∧ d.held = 0) = true :=
  follow_any (by decide +kernel)

end Mqtt.Props
