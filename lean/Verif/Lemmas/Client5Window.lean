import Verif.Lemmas.Client5Origin

/-!
Flow control of the MQTT 5 client: the tokens left and the publishes sent add up to the receive maximum.
-/
namespace Mqtt.Client5

open Mqtt.V5

/-- An effect that does not change the window. -/
def Effect.windowless : Effect → Bool
  | .connected _ => false
  | .encoded _ p => !isQos1 p
  | .pubackReceived _ => false
  | _ => true

theorem window_append {log new : List Effect} (h : ∀ e ∈ new, e.windowless = true) : window (log ++ new) = window log := by
  unfold window
  rw [List.foldl_append]
  generalize log.foldl windowOne {} = w
  induction new generalizing w with
  | nil => rfl
  | cons e new ih =>
    have he := h e (by simp)
    rw [List.foldl_cons, ih fun x hx => h x (by simp [hx])]
    cases e <;> simp_all [Effect.windowless, windowOne]

theorem window_one (log : List Effect) (e : Effect) : window (log ++ [e]) = windowOne (window log) e := by
  simp [window]

theorem windowless_completions (ops : List Op) (e : Error) : ∀ x ∈ completions ops e, x.windowless = true := by
  simp [completions, Effect.windowless]

/-- The settings in force while connected are those of the connection. -/
structure WindowInv (c : Client) : Prop where
  maximum : (c.ctl.state = .connected ∨ c.ctl.state = .cleanDisconnect) → live c.ops.log = true →
    c.ctl.settings.receiveMaximumFromServer = (window c.ops.log).maximum
  bound : live c.ops.log = true → c.ops.tokens + (window c.ops.log).sent ≤ (window c.ops.log).maximum + (window c.ops.log).acks
  exact : live c.ops.log = true → (window c.ops.log).honest = true →
    c.ops.tokens + (window c.ops.log).open_.length = (window c.ops.log).maximum
  small : live c.ops.log = true → c.ops.tokens ≤ (window c.ops.log).maximum

theorem window_new (cfg : Config) : WindowInv (Client.new cfg) := by
  constructor <;> simp [Client.new, live]

theorem WindowInv.same {c : Client} (hv : LiveInv c) (h : WindowInv c) {s : OpState} {k : Control} {new : List Effect} (hk : Ctl c.ctl k)
    (hl : s.log = c.ops.log ++ new) (h1 : ∀ e ∈ new, e.phase = false) (h2 : ∀ e ∈ new, e.windowless = true)
    (ht : s.tokens = c.ops.tokens) : WindowInv ⟨s, k⟩ := by
  have e1 : live s.log = live c.ops.log := by rw [hl]; exact live_append h1
  have e2 : window s.log = window c.ops.log := by rw [hl]; exact window_append h2
  constructor
  · intro hs hlive
    simp only at hs hlive ⊢
    rw [e1] at hlive
    rw [e2]
    rcases hs with hs | hs
    · rw [(hk.up hs).2]; exact h.maximum (.inl (hk.up hs).1) hlive
    · rw [(hk.clean hs).2]
      refine h.maximum ?_ hlive
      have := (hk.clean hs).1
      cases hst : c.ctl.state <;> simp [hst, State.open] at this <;> simp
      have := hv.down (.inr hst)
      rw [this] at hlive; cases hlive
  · simp only [e1, e2, ht]; exact h.bound
  · simp only [e1, e2, ht]; exact h.exact
  · simp only [e1, e2, ht]; exact h.small

theorem window_move {cfg : Config} {c c' : Client} (hi : LiveInv c) (h : WindowInv c) (m : Move cfg c c') : WindowInv c' := by
  have hr := Ctl.refl c.ctl
  cases m with
  | control k hk => exact h.same hi hk.ctl (List.append_nil _).symm (by simp) (by simp) rfl
  | accept p t hp hs hst => exact h.same hi hr rfl (by simp [Effect.phase]) (by simp [Effect.windowless]) rfl
  | reject p e hp => exact h.same hi hr rfl (by simp [Effect.phase]) (by simp [Effect.windowless]) rfl
  | push p hp hst => exact h.same hi hr (List.append_nil _).symm (by simp) (by simp) rfl
  | publish v a hst =>
    obtain ⟨s1, ctl, hs, hl, hx⟩ := onPublish_queue c.ops v a
    rcases hx with hx | hx
    · rw [hx]; exact h.same hi hr hl (by simp [Effect.phase]) (by simp [Effect.windowless]) hs.tokens
    · rw [hx]
      exact h.same hi hr (new := [.delivered v ctl, .pubackQueued s1.nextUid v.packetId]) (by simp [OpState.queuePuback, hl])
        (by simp [Effect.phase]) (by simp [Effect.windowless]) hs.tokens
  | invoke ctl hst =>
    rcases invoke_queue c.ops ctl with ⟨id, s1, _, hs, hl, _, _, _, hx⟩ | ⟨_, hs, hl, _⟩
    · rw [hx]
      exact h.same hi hr (new := [.invoked ctl (some id), .pubackQueued s1.nextUid id]) (by simp [OpState.queuePuback, hl])
        (by simp [Effect.phase]) (by simp [Effect.windowless]) hs.tokens
    · exact h.same hi hr hl (by simp [Effect.phase]) (by simp [Effect.windowless]) hs.tokens
  | token id hst =>
    have e1 : live (c.ops.log ++ [.pubackReceived id]) = live c.ops.log := live_one _ _ rfl
    constructor
    · intro hs hlive
      simp only [Client.onPuback] at hs hlive ⊢
      rw [e1] at hlive
      rw [window_one]
      exact h.maximum hs hlive
    all_goals
      intro hlive
      simp only [Client.onPuback] at hlive ⊢
      rw [e1] at hlive
      rw [window_one]
      simp only [windowOne]
      have hm := h.maximum hst hlive
      have hb := h.bound hlive
      have hx := h.exact hlive
      have hs := h.small hlive
    · omega
    · intro hh
      simp only [Bool.and_eq_true] at hh
      have hmem := List.contains_iff_mem.1 hh.2
      have := hx hh.1
      rw [List.length_erase_of_mem hmem]
      have := List.length_pos_of_mem hmem
      omega
    · omega
  | invalid op rest e hq he => exact h.same hi hr rfl (by simp [Effect.phase]) (by simp [Effect.windowless]) rfl
  | start op rest s ok hq hc he hst hs =>
    rcases setCurrent_cases hs with ⟨_, p, n, enc, rfl, _⟩ | ⟨_, op', n, enc, rfl, hb, _⟩
    · exact h.same hi hr rfl (by simp [Effect.phase]) (by simp [Effect.windowless]) rfl
    · exact h.same hi hr rfl (by simp [Effect.phase]) (by simp [Effect.windowless]) rfl
  | encode op buf buf' enc r hc he => exact h.same hi hr (List.append_nil _).symm (by simp) (by simp) rfl
  | finish op now s hc hsteps hs =>
    obtain ⟨htok, hcase⟩ := finish_cases hs
    have hsum : s.log = c.ops.log ++ [.encoded op.uid op.packet] ∧
        s.tokens = if isQos1 op.packet then c.ops.tokens - 1 else c.ops.tokens := by
      rcases hcase with ⟨_, _, rfl⟩ | ⟨_, rfl⟩ <;> exact ⟨rfl, rfl⟩
    obtain ⟨hlog, htk⟩ := hsum
    cases hq : isQos1 op.packet with
    | false => exact h.same hi hr hlog (by simp [Effect.phase]) (by simp [Effect.windowless, hq]) (by simpa [hq] using htk)
    | true =>
      have e1 : live s.log = live c.ops.log := by rw [hlog]; exact live_one _ _ rfl
      have e2 : window s.log = { window c.ops.log with
          open_ := packetId op.packet :: (window c.ops.log).open_, sent := (window c.ops.log).sent + 1 } := by
        rw [hlog, window_one]; simp [windowOne, hq]
      have ht := htok hq
      rw [hq, if_pos rfl] at htk
      constructor
      · simp only [e1, e2]; exact h.maximum
      all_goals
        simp only [e1, e2, htk]
        intro hlive
        have hb := h.bound hlive
        have hx := h.exact hlive
        have hs := h.small hlive
      · omega
      · intro hh
        have := hx hh
        simp only [List.length_cons]
        omega
      · omega
  | write data => exact h.same hi hr rfl (by simp [Effect.phase]) (by simp [Effect.windowless]) rfl
  | pinged uid => exact h.same hi hr rfl (by simp [Effect.phase]) (by simp [Effect.windowless]) rfl
  | unwrite => exact h.same hi hr (List.append_nil _).symm (by simp) (by simp) rfl
  | written e =>
    rw [completeAll_eq]
    exact h.same hi hr rfl (completions_phase _ _) (windowless_completions _ _) rfl
  | ack id uid op rest e a ht hu => exact h.same hi hr rfl (by simp [Effect.phase]) (by simp [Effect.windowless]) rfl
  | timeout op rest hu ht => exact h.same hi hr rfl (by simp [Effect.phase]) (by simp [Effect.windowless]) rfl
  | forget uid => exact h.same hi hr (List.append_nil _).symm (by simp) (by simp) rfl
  | fresh hst => exact h.same hi hr (List.append_nil _).symm (by simp) (by simp) rfl
  | disconnection e st hst =>
    have : live (c.ops.onDisconnection cfg).log = false := by
      rw [onDisconnection_log, ← List.append_assoc]; exact live_disconnected _
    constructor <;> simp only [this] <;> simp
  | connection settings now hst =>
    have hlog : (c.ops.onConnection cfg settings).log = (c.ops.log ++
        completions (lostOnConnection cfg settings c.ops) .offlinePolicy) ++ [.connected settings] := by simp
    have e2 : window (c.ops.onConnection cfg settings).log = { maximum := settings.receiveMaximumFromServer } := by
      rw [hlog, window_one]; rfl
    have hctl := toConnected_ctl cfg { c with ctl := { c.ctl with settings := settings } } now
    have ho : (({ c with ctl := { c.ctl with settings := settings } } : Client).toConnected cfg now).ops =
      c.ops.onConnection cfg settings := rfl
    constructor
    · intro _ _
      rw [ho, e2, hctl.1]
    all_goals
      intro _
      rw [ho, e2]
      simp
  | reset hst =>
    have hd := hi.down (.inl (by rcases hst with hst | hst <;> simp [hst, State.quiet]))
    have : live c.toStopped.ops.log = false := by
      simp only [Client.toStopped, resetAll_log]
      rw [live_append (completions_phase _ _)]; exact hd
    constructor <;> simp [this]
  | terminate hst hd =>
    have hd := hi.down (.inl (by simp [hst, State.quiet]))
    have : live c.toTerminated.ops.log = false := by
      simp only [Client.toTerminated, resetAll_log]
      rw [live_append (completions_phase _ _)]; exact hd
    constructor <;> simp [this]

theorem reachable_window {cfg : Config} {c : Client} (h : Reachable cfg c) : Inv c ∧ WindowInv c :=
  reachable_inv (P := fun c => Inv c ∧ WindowInv c)
    ⟨⟨held_new cfg, live_new cfg, track_new cfg⟩, window_new cfg⟩
    (fun _ _ ⟨hi, hf⟩ m => ⟨⟨held_move hi.held m, live_move hi.held hi.live m,
      track_move hi.held hi.live hi.track m⟩, window_move hi.live hf m⟩) h

end Mqtt.Client5
