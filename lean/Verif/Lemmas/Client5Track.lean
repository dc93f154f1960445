import Verif.Lemmas.Client5Live

/-!
The operations the MQTT 5 client keeps as unacknowledged are the ones the log says were sent and not
completed.
-/
namespace Mqtt.Client5

open Mqtt.V5

theorem track_append (b : Bool) (l new : List Effect) : track b (l ++ new) = new.foldl (trackOne b) (track b l) := by
  simp [track]

/-- Effects that do not concern operations in flight. -/
def Effect.bystander : Effect → Bool
  | .encoded _ p => !requiresAck p
  | .completed _ _ _ _ => false
  | .connected _ => false
  | .disconnected => false
  | _ => true

theorem track_bystanders {b : Bool} {l new : List Effect} (h : ∀ e ∈ new, e.bystander = true) :
    track b (l ++ new) = track b l := by
  rw [track_append]
  generalize track b l = t
  induction new generalizing t with
  | nil => rfl
  | cons e new ih =>
    rw [List.foldl_cons]
    have he := h e (by simp)
    rw [ih fun x hx => h x (by simp [hx])]
    cases e <;> simp [Effect.bystander] at he <;> simp [trackOne, he]

theorem track_one {b : Bool} {l : List Effect} {e : Effect} (h : e.bystander = true) :
    track b (l ++ [e]) = track b l := track_bystanders (by simpa using h)

theorem track_completions (b : Bool) (l : List Effect) (ops : List Op) (e : Error) :
    track b (l ++ completions ops e) = (track b l).filter fun x => !(ops.map (·.uid)).contains x.1 := by
  rw [track_append]
  generalize track b l = t
  induction ops generalizing t with
  | nil => simp [completions]; exact (List.filter_eq_self.2 (by simp)).symm
  | cons op ops ih =>
    have := ih (trackOne b t (.completed op.uid op.packet e none))
    simp only [completions, List.map_cons, List.foldl_cons] at this ⊢
    rw [this]
    simp only [trackOne, List.filter_filter]
    apply List.filter_congr
    intro x _
    simp only [List.contains_cons, Bool.not_or, bne]
    rw [Bool.and_comm]

theorem track_completed (b : Bool) (l : List Effect) (u : Nat) (p : Outgoing) (e : Error) (a : Option Received) :
    track b (l ++ [.completed u p e a]) = (track b l).filter fun x => x.1 != u := by
  rw [track_append]; rfl

structure TrackInv (c : Client) : Prop where
  awaiting : (track false c.ops.log).map (·.1) = c.ops.unacked.map (·.uid)
  flying : live c.ops.log = true → track true c.ops.log = c.ops.unacked.map fun op => (op.uid, op.packet)
  grounded : live c.ops.log = false → track true c.ops.log = []

theorem track_new (cfg : Config) : TrackInv (Client.new cfg) := by
  constructor <;> simp [Client.new, track, live]

/-- Nothing happens to operations in flight. -/
theorem TrackInv.same {c : Client} (h : TrackInv c) {s : OpState} {k : Control} (h1 : s.unacked = c.ops.unacked)
    (hl : live s.log = live c.ops.log) (ht : ∀ b, track b s.log = track b c.ops.log) : TrackInv ⟨s, k⟩ := by
  constructor
  · simp only [ht, h1]; exact h.awaiting
  · simp only [ht, h1, hl]; exact h.flying
  · simp only [ht, hl]; exact h.grounded

/-- The same when the effects are listed. -/
theorem TrackInv.bystanders {c : Client} (h : TrackInv c) {s : OpState} {k : Control} {new : List Effect}
    (h1 : s.unacked = c.ops.unacked) (hl : s.log = c.ops.log ++ new) (hn : ∀ e ∈ new, e.bystander = true) :
    TrackInv ⟨s, k⟩ := by
  refine h.same h1 ?_ fun b => by rw [hl, track_bystanders hn]
  rw [hl]
  refine live_append fun e he => ?_
  have := hn e he
  cases e <;> simp [Effect.bystander] at this <;> rfl

/-- Completing operations that are not in flight. -/
theorem filter_absent {l : List (Nat × Outgoing)} {us : List Nat} (h : ∀ u ∈ us, u ∉ l.map (·.1)) :
    l.filter (fun x => !us.contains x.1) = l := by
  refine List.filter_eq_self.2 fun x hx => ?_
  cases hc : us.contains x.1 with
  | false => rfl
  | true => exact absurd (List.mem_map.2 ⟨x, hx, rfl⟩) (h x.1 (by simpa using hc))

theorem filter_all {l : List (Nat × Outgoing)} {us : List Nat} (h : ∀ u ∈ l.map (·.1), u ∈ us) :
    l.filter (fun x => !us.contains x.1) = [] := by
  refine List.filter_eq_nil_iff.2 fun x hx => ?_
  have := h x.1 (List.mem_map.2 ⟨x, hx, rfl⟩)
  simpa using this

theorem TrackInv.uids {c : Client} (h : TrackInv c) (b : Bool) :
    ∀ u ∈ (track b c.ops.log).map (·.1), u ∈ c.ops.unacked.map (·.uid) := by
  intro u hu
  cases b with
  | false => rw [h.awaiting] at hu; exact hu
  | true =>
    cases hl : live c.ops.log with
    | true =>
      rw [h.flying hl] at hu
      simpa using hu
    | false => rw [h.grounded hl] at hu; cases hu

/-- An operation is in one place only. -/
theorem HeldInv.disjoint {c : Client} (h : HeldInv c) {u : Nat}
    (hu : u ∈ c.ops.queued.map (·.uid) ∨ u ∈ c.ops.current.toList.map (·.uid) ∨ u ∈ c.ops.writing.map (·.uid)) :
    u ∉ c.ops.unacked.map (·.uid) := by
  intro hx
  have := h.once u
  simp only [places, OpState.held, List.map_append, List.count_append] at this
  have hb : born c.ops.nextUid u ≤ 1 := by unfold born; split <;> omega
  have h0 := List.count_pos_iff.2 hx
  rcases hu with hu | hu | hu <;> have := List.count_pos_iff.2 hu <;> omega

/-- One operation leaves the list of unacknowledged ones. -/
theorem filter_take {ops rest : List Op} {op : Op} {uid : Nat} (hone : ∀ u, (ops.map (·.uid)).count u ≤ 1)
    (h : takeUid uid ops = some (op, rest)) :
    rest = ops.filter fun o => o.uid != op.uid := by
  obtain ⟨x, y, h1, h2, h3⟩ := takeUid_split h
  have hu := takeUid_uid h
  subst h1 h2
  have hy : ∀ o ∈ y, o.uid ≠ op.uid := by
    intro o ho hx
    have := hone op.uid
    simp only [List.map_append, List.count_append, List.map_cons, List.count_cons, beq_self_eq_true, if_true] at this
    have := List.count_pos_iff.2 (List.mem_map.2 ⟨o, ho, hx⟩ : op.uid ∈ y.map (·.uid))
    omega
  rw [List.filter_append, List.filter_cons]
  simp only [bne_self_eq_false, Bool.false_eq_true, if_false]
  rw [List.filter_eq_self.2 (by intro o ho; simpa [hu] using h3 o ho),
    List.filter_eq_self.2 (by intro o ho; simpa using hy o ho)]

theorem TrackInv.remove {c : Client} (h : TrackInv c) (hh : HeldInv c) {op : Op} {rest : List Op} {uid : Nat}
    {t : AMap Nat Nat} {e : Error} {a : Option Received} (hu : takeUid uid c.ops.unacked = some (op, rest)) :
    TrackInv ⟨({ c.ops with unacked := rest, table := t } : OpState).complete op e a, c.ctl⟩ := by
  have hr := filter_take hh.unackedOnce hu
  have hl : live (c.ops.log ++ [.completed op.uid op.packet e a]) = live c.ops.log := live_one _ _ rfl
  have key : ∀ (l : List (Nat × Outgoing)) (ops : List Op) (v : Nat), l.map (·.1) = ops.map (·.uid) →
      (l.filter fun x => x.1 != v).map (·.1) = (ops.filter fun o => o.uid != v).map (·.uid) := by
    intro l ops v hm
    have h1 : (l.filter fun x => x.1 != v).map (·.1) = (l.map (·.1)).filter (· != v) := by
      rw [List.filter_map]; rfl
    have h2 : (ops.filter fun o => o.uid != v).map (·.uid) = (ops.map (·.uid)).filter (· != v) := by
      rw [List.filter_map]; rfl
    rw [h1, h2, hm]
  constructor
  · simp only [OpState.complete, track_completed, hr]
    exact key _ _ _ h.awaiting
  · intro hs
    simp only [OpState.complete, track_completed, hr]
    rw [h.flying (hl.symm.trans hs), List.filter_map]
    rfl
  · intro hs
    simp only [OpState.complete, track_completed]
    rw [h.grounded (hl.symm.trans hs)]
    rfl

theorem track_move {cfg : Config} {c c' : Client} (hh : HeldInv c) (hv : LiveInv c) (h : TrackInv c)
    (m : Move cfg c c') : TrackInv c' := by
  cases m with
  | control k hk => exact h.same rfl rfl fun _ => rfl
  | accept p t hp hs hst => exact h.bystanders rfl rfl (by simp [Effect.bystander])
  | reject p e hp =>
    have hl : ∀ l : List Effect, l ++ [.submitted c.ops.nextUid p, .completed c.ops.nextUid p e none] =
        (l ++ [.submitted c.ops.nextUid p]) ++ [.completed c.ops.nextUid p e none] := by simp
    refine h.same rfl (live_append (by simp [Effect.phase])) fun b => ?_
    simp only [OpState.reject]
    rw [hl, track_completed, track_one rfl]
    refine List.filter_eq_self.2 fun x hx => ?_
    simp only [bne_iff_ne, ne_eq]
    intro hx'
    have h1 := h.uids b x.1 (List.mem_map.2 ⟨x, hx, rfl⟩)
    have h2 := List.count_pos_iff.2 h1
    have h3 := hh.once x.1
    simp only [places, OpState.held, List.map_append, List.count_append] at h3
    rw [hx'] at h2 h3
    simp [born] at h3
    omega
  | push p hp hst => exact h.same rfl rfl fun _ => rfl
  | publish v a hst =>
    obtain ⟨s1, ctl, hs, hl, hx⟩ := onPublish_queue c.ops v a
    rcases hx with hx | hx
    · rw [hx]; exact h.bystanders hs.unacked hl (by simp [Effect.bystander])
    · rw [hx]
      exact h.bystanders (new := [.delivered v ctl, .pubackQueued s1.nextUid v.packetId]) hs.unacked
        (by simp [OpState.queuePuback, hl]) (by simp [Effect.bystander])
  | invoke ctl hst =>
    rcases invoke_queue c.ops ctl with ⟨id, s1, _, hs, hl, _, _, _, hx⟩ | ⟨_, hs, hl, _⟩
    · rw [hx]
      exact h.bystanders (new := [.invoked ctl (some id), .pubackQueued s1.nextUid id]) hs.unacked
        (by simp [OpState.queuePuback, hl]) (by simp [Effect.bystander])
    · exact h.bystanders hs.unacked hl (by simp [Effect.bystander])
  | token id hst => exact h.bystanders rfl rfl (by simp [Effect.bystander])
  | invalid op rest e hq he =>
    refine h.same rfl (live_one _ _ rfl) fun b => ?_
    simp only [OpState.complete, track_completed]
    refine List.filter_eq_self.2 fun x hx => ?_
    simp only [bne_iff_ne, ne_eq]
    intro hx'
    have h1 := h.uids b x.1 (List.mem_map.2 ⟨x, hx, rfl⟩)
    rw [hx'] at h1
    exact hh.disjoint (u := op.uid) (.inl (by simp [hq])) h1
  | start op rest s ok hq hc he hst hs =>
    rcases setCurrent_cases hs with ⟨_, p, n, enc, rfl, _⟩ | ⟨_, op', n, enc, rfl, hb, _⟩
    · exact h.bystanders rfl rfl (by simp [Effect.bystander])
    · exact h.bystanders rfl rfl (by simp [Effect.bystander])
  | encode op buf buf' enc r hc he => exact h.same rfl rfl fun _ => rfl
  | finish op now s hc hsteps hs =>
    obtain ⟨_, ⟨hr, hid, rfl⟩ | ⟨hr, rfl⟩⟩ := finish_cases hs
    · have hl : live (c.ops.log ++ [.encoded op.uid op.packet]) = live c.ops.log := live_one _ _ rfl
      have ht : ∀ b, track b (c.ops.log ++ [.encoded op.uid op.packet]) =
          track b c.ops.log ++ [(op.uid, op.packet)] := by
        intro b; rw [track_append]; simp [trackOne, hr]
      constructor
      · simp only [OpState.finishAck, ht, List.map_append, List.map_cons, List.map_nil, changeStats_uid, h.awaiting]
      · intro hs
        simp only [OpState.finishAck, ht, List.map_append, List.map_cons, List.map_nil, changeStats_uid,
          changeStats_packet]
        rw [h.flying (hl.symm.trans hs)]
      · intro hs
        have := hv.cur (hl.symm.trans hs) op hc
        rw [requiresAck_user hr] at this
        cases this
    · exact h.bystanders rfl rfl (by simp [Effect.bystander, hr])
  | write data => exact h.bystanders rfl rfl (by simp [Effect.bystander])
  | pinged uid => exact h.bystanders rfl rfl (by simp [Effect.bystander])
  | unwrite => exact h.same rfl rfl fun _ => rfl
  | written e =>
    rw [completeAll_eq]
    refine h.same rfl (live_completions _ _ _) fun b => ?_
    simp only
    rw [track_completions]
    exact filter_absent fun u hu hx => hh.disjoint (.inr (.inr hu)) (h.uids b u hx)
  | ack id uid op rest e a ht hu => exact h.remove hh hu
  | timeout op rest hu ht => exact h.remove hh hu
  | forget uid => exact h.same rfl rfl fun _ => rfl
  | fresh hq => exact h.same rfl rfl fun _ => rfl
  | disconnection e st hst =>
    have hl : live (c.ops.onDisconnection cfg).log = false := by
      rw [onDisconnection_log, ← List.append_assoc, live_disconnected]
    have ht : ∀ b, track b (c.ops.onDisconnection cfg).log = if b then [] else
        (track b c.ops.log).filter fun x => !((c.ops.lostOnDisconnection cfg).map (·.uid)).contains x.1 := by
      intro b
      rw [onDisconnection_log, ← List.append_assoc, track_append, track_completions]
      cases b <;> rfl
    constructor
    · simp only [ht, onDisconnection_unacked]
      simp only [Bool.false_eq_true, if_false]
      have h1 : ((track false c.ops.log).filter fun x =>
          !((c.ops.lostOnDisconnection cfg).map (·.uid)).contains x.1).map (·.1) =
          ((track false c.ops.log).map (·.1)).filter
            (fun u => !((c.ops.lostOnDisconnection cfg).map (·.uid)).contains u) := by
        rw [List.filter_map]; rfl
      rw [h1, h.awaiting]
      have h2 : (c.ops.unacked.map (·.uid)).filter
            (fun u => !((c.ops.lostOnDisconnection cfg).map (·.uid)).contains u) =
          (c.ops.unacked.filter fun op => !((c.ops.lostOnDisconnection cfg).map (·.uid)).contains op.uid).map
            (·.uid) := by
        rw [List.filter_map]; rfl
      rw [h2]
      have h3 : (keepUnacked cfg.offline (c.ops.unacked.map markDisconnected)).map (·.uid) =
          (c.ops.unacked.filter fun op => !failsUnacked cfg.offline (markDisconnected op).packet).map (·.uid) := by
        unfold keepUnacked
        rw [List.filter_map, List.map_map]
        congr 1
        funext op
        simp
      rw [h3]
      congr 1
      refine List.filter_congr fun op ho => ?_
      have hou : op.uid ∈ c.ops.unacked.map (·.uid) := List.mem_map.2 ⟨op, ho, rfl⟩
      congr 1
      rw [Bool.eq_iff_iff]
      simp only [List.contains_iff_mem]
      simp only [OpState.lostOnDisconnection, lose, loseUnacked, List.map_append, List.mem_append]
      constructor
      · rintro ((hx | hx) | hx)
        · exact absurd hou (hh.disjoint (.inr (.inr hx)))
        · obtain ⟨o, ho1, ho2⟩ := List.mem_map.1 hx
          have ho1 := (List.mem_filter.1 ho1).1
          rcases List.mem_append.1 ho1 with ho1 | ho1
          · exact absurd hou (hh.disjoint (.inr (.inl (ho2 ▸ List.mem_map.2 ⟨o, ho1, rfl⟩))))
          · exact absurd hou (hh.disjoint (.inl (ho2 ▸ List.mem_map.2 ⟨o, ho1, rfl⟩)))
        · obtain ⟨o, ho1, ho2⟩ := List.mem_map.1 hx
          obtain ⟨ho1, ho3⟩ := List.mem_filter.1 ho1
          obtain ⟨o', ho', rfl⟩ := List.mem_map.1 ho1
          rw [markDisconnected_uid] at ho2
          have := uid_unique hh.unackedOnce ho' ho ho2
          subst this
          exact ho3
      · intro hf
        exact .inr (List.mem_map.2 ⟨markDisconnected op,
          List.mem_filter.2 ⟨List.mem_map.2 ⟨op, ho, rfl⟩, hf⟩, by simp⟩)
    · intro hs; simp only at hs; rw [hl] at hs; cases hs
    · intro _; simp only [ht, if_true]
  | connection settings now hst =>
    have hl : live (({ c with ctl := { c.ctl with settings := settings } } : Client).toConnected cfg now).ops.log
        = true := by
      simp only [Client.toConnected]
      rw [onConnection_log, ← List.append_assoc, live_connected]
    have ht : ∀ b, track b (({ c with ctl := { c.ctl with settings := settings } } : Client).toConnected cfg
        now).ops.log = [] := by
      intro b
      simp only [Client.toConnected]
      rw [onConnection_log, ← List.append_assoc, track_append]; rfl
    constructor
    · rw [ht]; simp [Client.toConnected]
    · intro _; rw [ht]; simp [Client.toConnected]
    · intro _; rw [ht]
  | reset hst =>
    have hq : c.ctl.state.quiet = true := by rcases hst with h | h <;> simp [h, State.quiet]
    have h0 := hv.down (.inl hq)
    have hl : live c.toStopped.ops.log = false := by
      simp only [Client.toStopped]
      rw [resetAll_log, live_completions, h0]
    have ht : ∀ b, track b c.toStopped.ops.log = [] := by
      intro b
      simp only [Client.toStopped]
      rw [resetAll_log, track_completions]
      refine filter_all fun u hu => ?_
      have := h.uids b u hu
      simp only [List.map_append, List.mem_append]
      exact .inr this
    constructor
    · rw [ht]; simp [Client.toStopped]
    · intro hs; rw [hl] at hs; cases hs
    · intro _; rw [ht]
  | terminate hst hd =>
    have hq : c.ctl.state.quiet = true := by simp [hst, State.quiet]
    have h0 := hv.down (.inl hq)
    have hl : live c.toTerminated.ops.log = false := by
      simp only [Client.toTerminated]
      rw [resetAll_log, live_completions, h0]
    have ht : ∀ b, track b c.toTerminated.ops.log = [] := by
      intro b
      simp only [Client.toTerminated]
      rw [resetAll_log, track_completions]
      refine filter_all fun u hu => ?_
      have := h.uids b u hu
      simp only [List.map_append, List.mem_append]
      exact .inr this
    constructor
    · rw [ht]; simp [Client.toTerminated]
    · intro hs; rw [hl] at hs; cases hs
    · intro _; rw [ht]

/-- The three invariants together. -/
structure Inv (c : Client) : Prop where
  held : HeldInv c
  live : LiveInv c
  track : TrackInv c

theorem reachable_Inv {cfg : Config} {c : Client} (h : Reachable cfg c) : Inv c :=
  reachable_inv ⟨held_new cfg, live_new cfg, track_new cfg⟩
    (fun _ _ h m => ⟨held_move h.held m, live_move h.held h.live m, track_move h.held h.live h.track m⟩) h

end Mqtt.Client5
