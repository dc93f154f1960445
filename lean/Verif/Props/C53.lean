import Verif.Lemmas.Client311Spec

/-!
C53: 3.1.1 client: a server acknowledgement can only complete the operation it acknowledges.

Violated: handlers look a request up by packet id and look neither at its kind nor at whether it has been sent.
-/
namespace Mqtt.Props
open Mqtt.Client311

variable {allowed : Conn → Event → Prop} {c : Conn}

/-- An acknowledgement is in order if requests with its packet id that are not completed have been sent on the channel
and are acknowledged by this type of packet. -/
def C53_inOrder (c : Conn) (p : Packet) (chan id : Nat) : Prop :=
  ∀ uid kind size, Outstanding c.log uid id kind size → SentOn c.log uid chan ∧ p.acknowledges kind = true

/-- What an acknowledgement may do: it is refused while the connection is being established; otherwise it is ignored
if there is no such request, or completes the one it names, or, if it is a SUBACK that has not as many return codes as
there are topics, closes the connection. -/
def C53_effect (c : Conn) (p : Packet) (n id : Nat) (c' : Conn) : Prop :=
  (c.state = .connecting ∧ c'.log = c.log ++ [.rejected n]) ∨
  (c.state ≠ .connecting ∧ (∀ uid kind size, ¬ Outstanding c.log uid id kind size) ∧
    c'.log = c.log ++ [.processed n p]) ∨
  (c.state ≠ .connecting ∧ ∃ uid kind size, Outstanding c.log uid id kind size ∧
    (∀ codes topics, p = .suback id codes → kind = .subscribe topics → codes = topics) ∧
    c'.log = c.log ++ [.processed n p, .completed uid .success]) ∨
  (c.state ≠ .connecting ∧ c'.log = c.log ++ [.processed n p, .rejected n] ∧
    ∃ uid kind size codes, Outstanding c.log uid id kind size ∧ p = .suback id codes ∧ kind ≠ .subscribe codes)

private theorem finish_ok (h : Client311.Reachable allowed c) (hb : c.busy = .idle) {n id : Nat} {p : Packet}
    (hn : c.chan = some n) (hin : C53_inOrder c p n id) {c1 : Conn}
    (h1 : c1 = c.tell (.processed n p)) :
    (∃ c', c1.finish id .success = .ok c' ∧ (∀ u k s, ¬ Outstanding c.log u id k s) ∧
      c'.log = c.log ++ [.processed n p]) ∨
    (∃ c' u k s, c1.finish id .success = .ok c' ∧ Outstanding c.log u id k s ∧
      c'.log = c.log ++ [.processed n p, .completed u .success]) := by
  subst h1
  rcases finish_cases (c := c.tell (.processed n p)) (id := id) (o := .success) rfl with ⟨h1, e⟩ | ⟨u, h1, ⟨_, e⟩ | ⟨h2, _, e⟩⟩
  · refine .inl ⟨_, e, fun u k s ho => ?_, rfl⟩
    have := (h.outstanding ho).2.1
    rw [show c.table.get id = none from h1] at this
    cases this
  · obtain ⟨r, _, _, ho⟩ := h.table_outstanding hb h1
    refine .inr ⟨_, u, _, _, e, ho, ?_⟩
    show (((c.tell (.processed n p)).complete u .success).log) = _
    rw [complete_log]
    simp [Conn.tell]
  · exfalso
    obtain ⟨r, _, _, ho⟩ := h.table_outstanding hb h1
    exact h2 ((h.ongoing_iff hn ho).2 (hin _ _ _ ho).1)

/-- An acknowledgement that is in order does what it may do. -/
theorem C53_partial (h : Client311.Reachable allowed c) {p : Packet} {n id : Nat}
    (he : Client311.Enabled c (.packet p) = true) (hn : c.chan = some n) (hp : p.ack = some id)
    (hin : C53_inOrder c p n id) :
    ∃ c', Client311.step c (.packet p) = .ok c' ∧ C53_effect c p n id c' := by
  simp only [Enabled, decide_eq_true_eq] at he
  have hb := he.1
  by_cases hst : c.state = .connecting
  · refine ⟨c.reject n, ?_, .inl ⟨hst, rfl⟩⟩
    simp only [Client311.step, hn]
    cases p <;> first | (cases hp; done) | skip
    all_goals (cases hp; simp [Conn.receive, hst])
  · have fin := finish_ok h hb hn hin rfl
    have easy : Client311.step c (.packet p) = (c.tell (.processed n p)).finish id .success →
        (∀ u k s, Outstanding c.log u id k s →
          ∀ codes topics, p = .suback id codes → k = .subscribe topics → codes = topics) →
        ∃ c', Client311.step c (.packet p) = .ok c' ∧ C53_effect c p n id c' := by
      intro e hcodes
      rcases fin with ⟨c', e1, e2, e3⟩ | ⟨c', u, k, s, e1, e2, e3⟩
      · exact ⟨c', e.trans e1, .inr (.inl ⟨hst, e2, e3⟩)⟩
      · exact ⟨c', e.trans e1, .inr (.inr (.inl ⟨hst, u, k, s, e2, hcodes _ _ _ e2, e3⟩))⟩
    cases p with
    | puback i => cases hp; exact easy (by simp only [Client311.step, hn, Conn.receive]; rw [if_neg hst]) (by rintro _ _ _ _ _ _ ⟨⟩)
    | pubcomp i => cases hp; exact easy (by simp only [Client311.step, hn, Conn.receive]; rw [if_neg hst]) (by rintro _ _ _ _ _ _ ⟨⟩)
    | unsuback i => cases hp; exact easy (by simp only [Client311.step, hn, Conn.receive]; rw [if_neg hst]) (by rintro _ _ _ _ _ _ ⟨⟩)
    | suback i codes =>
      cases hp
      have hrec : Client311.step c (.packet (.suback id codes)) =
          (c.tell (.processed n (.suback id codes))).suback n id codes := by
        simp only [Client311.step, hn, Conn.receive]; rw [if_neg hst]
      cases ht : c.table.get id with
      | none =>
        refine ⟨c.tell (.processed n (.suback id codes)), ?_, .inr (.inl ⟨hst, fun u k s ho => ?_, rfl⟩)⟩
        · rw [hrec]; simp [Conn.suback, Conn.tell, ht]
        · have := (h.outstanding ho).2.1
          rw [ht] at this; cases this
      | some u =>
        obtain ⟨r, hr, hid, ho⟩ := h.table_outstanding hb ht
        have hk : r.kind.isSubscribe = true := by
          have := (hin _ _ _ ho).2
          cases hrk : r.kind <;> rw [hrk] at this <;> simp [Packet.acknowledges] at this <;> rfl
        have hsub : (c.tell (.processed n (.suback id codes))).suback n id codes =
            if r.topics ≠ codes then .ok ((c.tell (.processed n (.suback id codes))).reject n)
            else (c.tell (.processed n (.suback id codes))).finish id .success := by
          unfold Conn.suback
          rw [show (c.tell (.processed n (.suback id codes))).table.get id = some u from ht]
          simp only
          rw [show (c.tell (.processed n (.suback id codes))).reqs.get u = some r from hr]
          simp [hk]
        by_cases hc : r.topics = codes
        · refine easy (by rw [hrec, hsub, if_neg (by simpa using hc)]) ?_
          intro u2 k2 s2 ho2 codes2 m e1 e2
          cases e1
          obtain ⟨_, ht2, r2, hr2, _, ek, _⟩ := h.outstanding ho2
          rw [ht] at ht2
          cases ht2
          rw [hr] at hr2
          cases hr2
          rw [← hc]
          exact h.topics _ r m hr (ek.trans e2)
        · refine ⟨_, by rw [hrec, hsub, if_pos hc], .inr (.inr (.inr ⟨hst, by simp [Conn.reject, Conn.tell],
            u, r.kind, r.size, codes, ho, rfl, fun e => hc (h.topics u r codes hr e)⟩))⟩
    | _ => cases hp

/-- A packet completes no other request than the one that has its packet id, whatever the server sends. -/
theorem C53_only (h : Client311.Reachable allowed c) {p : Packet} {c' : Conn} {uid : Nat}
    (he : Client311.Enabled c (.packet p) = true) (hs : Client311.step c (.packet p) = .ok c')
    (hc : completions c'.log uid ≠ completions c.log uid) :
    ∃ id kind size, p.ack = some id ∧ Outstanding c.log uid id kind size := by
  simp only [Enabled, decide_eq_true_eq] at he
  have hb := he.1
  have same : ∀ {l : List Trace}, c'.log = c.log ++ l → (∀ t ∈ l, quiet t = true) → False := by
    intro l e hl
    apply hc
    rw [e, completions_append, completions_quiet hl, Nat.add_zero]
  have fin : ∀ {id : Nat} {t : Trace}, quiet t = true → p.ack = some id → (c.tell t).finish id .success = .ok c' →
      ∃ id kind size, p.ack = some id ∧ Outstanding c.log uid id kind size := by
    intro id t hq hp hs
    rcases finish_cases hs with ⟨_, e⟩ | ⟨u, h1, ⟨_, e⟩ | ⟨_, _, e⟩⟩
    · cases e
      exact (same (l := [t]) rfl (by simpa using hq)).elim
    · obtain ⟨r, _, _, ho⟩ := h.table_outstanding hb h1
      have hl : c'.log = c.log ++ [t] ++ [.completed u .success] := by
        cases e
        exact complete_log
      have : u = uid := by
        by_cases e2 : u = uid
        · exact e2
        · exfalso
          apply hc
          rw [hl, completions_append, completions_append, completions_one, if_neg e2,
            completions_quiet (l := [t]) (by simpa using hq)]
          rfl
      subst this
      exact ⟨id, _, _, hp, ho⟩
    · cases e
  simp only [Client311.step] at hs
  split at hs
  · cases hs
  · next n hn =>
    unfold Conn.receive at hs
    split at hs
    · cases hs; exact (same (l := [_]) rfl (by simp [quiet])).elim
    · cases hs
      exfalso
      unfold Conn.connack at same
      split at same
      · exact same (l := [_]) rfl (by simp [quiet])
      · split at same
        · simp only at same
          split at same
          · exact same (l := [_, _]) (by simp only [Conn.tell, List.append_assoc]; rfl) (by simp [quiet])
          · exact same (l := [_, _]) (by simp only [List.append_assoc]; rfl) (by simp [quiet])
        · exact same (l := [_, _]) rfl (by simp [quiet])
    · split at hs
      · cases hs; exact (same (l := [_]) rfl (by simp [quiet])).elim
      · split at hs
        · cases hs
          exfalso
          split at same
          · exact same (l := [_, _]) (by simp only [Conn.tell, List.append_assoc]; rfl) (by simp [quiet])
          · exact same (l := [_]) rfl (by simp [quiet])
        · exact fin rfl rfl hs
        · exact fin rfl rfl hs
        · exact fin rfl rfl hs
        · unfold Conn.suback at hs
          split at hs
          · cases hs; exact (same (l := [_]) rfl (by simp [quiet])).elim
          · split at hs
            · cases hs
            · split at hs
              · cases hs
              · split at hs
                · cases hs
                  exact (same (l := [_, _]) (by simp only [Conn.tell, Conn.reject, List.append_assoc]; rfl)
                    (by simp [quiet])).elim
                · exact fin rfl rfl hs
        · cases hs; exact (same (l := [_, _]) (by simp only [Conn.tell, List.append_assoc]; rfl) (by simp [quiet])).elim
        · cases hs; exact (same (l := [_, _]) (by simp only [Conn.tell, List.append_assoc]; rfl) (by simp [quiet])).elim
        · cases hs; exact (same (l := [_]) rfl (by simp [quiet])).elim

/-- A memory error is always due to an acknowledgement that names a request that has not been sent on the channel, or a
SUBACK that names a request of another kind. In particular API calls, timeouts, interruptions and acknowledgements that
are in order never lead to one, and the last reference is never released while the connection is in use. -/
theorem C53_fault (h : Client311.Reachable allowed c) {e : Event} {f : Fault} (he : Client311.Enabled c e = true)
    (hs : Client311.step c e = .error f) :
    f = .memory ∧ ∃ p n id uid kind size, e = .packet p ∧ c.chan = some n ∧ p.ack = some id ∧
      Outstanding c.log uid id kind size ∧
      (¬ SentOn c.log uid n ∨ ((∃ codes, p = .suback id codes) ∧ p.acknowledges kind = false)) := by
  obtain ⟨hf, p, id, uid, r, e1, hb, _, hp, ht, hr, hm⟩ := fault_cases h.inv.1 h.inv.2 he hs
  subst e1
  simp only [Enabled, decide_eq_true_eq] at he
  cases hn : c.chan with
  | none =>
    have := (h.inv.1.noChan hn).1
    rw [he.2] at this; cases this
  | some n =>
    obtain ⟨r2, hr2, _, ho⟩ := h.table_outstanding hb ht
    rw [hr] at hr2
    cases hr2
    refine ⟨hf, p, n, id, uid, r.kind, r.size, rfl, rfl, hp, ho, ?_⟩
    rcases hm with hm | ⟨h1, h2⟩
    · exact .inl (h.task_unsent hn hm)
    · cases p with
      | suback i codes =>
        cases hp
        refine .inr ⟨⟨codes, rfl⟩, ?_⟩
        cases hrk : r.kind <;> rw [hrk] at h2 <;> first | rfl | cases h2
      | _ => cases h1

/-! ### Violations -/

/-- A connection that is established. -/
def C53_connected : List Event :=
  [.connect false, .advance, .launch true, .setup .opened, .packet (.connack true)]

/-- A PUBACK completes a subscription. -/
theorem C53_violated_kind : ∃ c uid c', Client311.Reachable (fun _ _ => True) c ∧
    Outstanding c.log uid 1 (.subscribe 1) 12 ∧ Client311.Enabled c (.packet (.puback 1)) = true ∧
    Client311.step c (.packet (.puback 1)) = .ok c' ∧ .completed uid .success ∈ c'.log := by
  refine ⟨after (C53_connected ++ [.create (.subscribe 1) 12, .run 0 (.ongoing false 1)]), 0,
    after (C53_connected ++ [.create (.subscribe 1) 12, .run 0 (.ongoing false 1), .packet (.puback 1)]),
    reachable_after _, ?_, ?_, ?_, ?_⟩
  · unfold Outstanding; decide +kernel
  · decide +kernel
  · rfl
  · decide +kernel

/-- A PUBACK that arrives after a reconnect and before CONNACK completes a publish that has never been sent. -/
theorem C53_violated_unsent : ∃ c uid c', Client311.Reachable (fun _ _ => True) c ∧
    Outstanding c.log uid 1 (.publish 1) 12 ∧ (∀ n, ¬ SentOn c.log uid n) ∧
    Client311.Enabled c (.packet (.puback 1)) = true ∧
    Client311.step c (.packet (.puback 1)) = .ok c' ∧ .completed uid .success ∈ c'.log := by
  refine ⟨after (C53_connected ++ [.close, .shutdown, .advance, .create (.publish 1) 12, .advance, .attempt true,
      .setup .opened]), 0,
    after (C53_connected ++ [.close, .shutdown, .advance, .create (.publish 1) 12, .advance, .attempt true,
      .setup .opened, .packet (.puback 1)]), reachable_after _, ?_, ?_, ?_, ?_, ?_⟩
  · unfold Outstanding; decide +kernel
  · rintro n ⟨d, hd⟩
    have : (after (C53_connected ++ [.close, .shutdown, .advance, .create (.publish 1) 12, .advance, .attempt true,
      .setup .opened])).log.all (fun t => !isSend t) = true := by decide +kernel
    have := List.all_eq_true.1 this _ hd
    simp [isSend] at this
  · decide +kernel
  · rfl
  · decide +kernel

/-- A PUBACK for a publish whose task is scheduled is a memory error. -/
theorem C53_violated_memory : ∃ c, Client311.Reachable (fun _ _ => True) c ∧
    Client311.Enabled c (.packet (.puback 1)) = true ∧
    Client311.step c (.packet (.puback 1)) = .error .memory := by
  refine ⟨after (C53_connected ++ [.create (.publish 1) 12]), reachable_after _, ?_, ?_⟩
  · decide +kernel
  · rfl

/-- A SUBACK for a publish is a memory error. -/
theorem C53_violated_suback : ∃ c, Client311.Reachable (fun _ _ => True) c ∧ c.tasks = [] ∧
    Client311.Enabled c (.packet (.suback 1 1)) = true ∧
    Client311.step c (.packet (.suback 1 1)) = .error .memory := by
  refine ⟨after (C53_connected ++ [.create (.publish 1) 12, .run 0 (.ongoing false 0)]), reachable_after _, ?_, ?_, ?_⟩
  · decide +kernel
  · decide +kernel
  · rfl

/-- The hypotheses of `C53_partial` can be met: a subscription and a publish are sent, and the SUBACK arrives. -/
def C53_history : List Event :=
  C53_connected ++ [.create (.subscribe 2) 12, .create (.publish 1) 12, .run 0 (.ongoing true 2), .run 0 (.ongoing true 0)]

example : (after C53_history).ongoing = [0, 1] ∧ (after C53_history).state = .connected ∧
    (after (C53_history ++ [.packet (.suback 1 2)])).log =
      (after C53_history).log ++ [.processed 0 (.suback 1 2), .completed 0 .success] := by decide +kernel

example : C53_inOrder (after C53_history) (.suback 1 2) 0 1 := by
  intro uid kind size ho
  have hr := reachable_after C53_history
  have h0 : Outstanding (after C53_history).log 0 1 (.subscribe 2) 12 := by unfold Outstanding; decide +kernel
  have h1 := (hr.outstanding ho).2.1
  have h2 := (hr.outstanding h0).2.1
  rw [h1] at h2
  cases h2
  obtain ⟨_, _, r, hr1, _, e1, _⟩ := hr.outstanding ho
  obtain ⟨_, _, r2, hr2, _, e2, _⟩ := hr.outstanding h0
  rw [hr1] at hr2
  cases hr2
  rw [← e1, e2]
  exact ⟨⟨false, by decide +kernel⟩, rfl⟩

end Mqtt.Props
