import Verif.Notify311
import Verif.Spec.Notify311
import Verif.Lemmas.Progress311

/-! What listeners of a 3.1.1 connection are told. -/
namespace Mqtt.Client311

/-- The log grows by what is to be told to listeners. -/
def Adds (c c' : Conn) (ks : List Listener311.Kind) : Prop := ∃ t, c'.log = c.log ++ t ∧ notices t = ks

theorem Adds.same {c c' : Conn} (h : c'.log = c.log) : Adds c c' [] := ⟨[], by simp [h], rfl⟩

theorem Adds.some {c c' : Conn} {t : List Trace} {ks : List Listener311.Kind} (h : c'.log = c.log ++ t) (ht : notices t = ks) :
    Adds c c' ks := ⟨t, h, ht⟩

theorem Adds.trans {a b c : Conn} {k l : List Listener311.Kind} (h1 : Adds a b k) (h2 : Adds b c l) : Adds a c (k ++ l) := by
  obtain ⟨t, e, rfl⟩ := h1
  obtain ⟨u, e2, rfl⟩ := h2
  exact ⟨t ++ u, by rw [e2, e, List.append_assoc], by simp [notices]⟩

/-- Nothing for listeners is added after what was. -/
theorem Adds.then {a b c : Conn} {k : List Listener311.Kind} (h1 : Adds a b k) (h2 : Adds b c []) : Adds a c k := by
  have := h1.trans h2
  rwa [List.append_nil] at this

theorem Adds.after {a b c : Conn} {k : List Listener311.Kind} (h2 : Adds b c []) (h1 : Adds a b k) : Adds a c k := h1.then h2

theorem create_adds {c c' : Conn} {kind : Kind} {size : Nat} (h : c.create kind size = .ok c') : Adds c c' [] := by
  rcases create_cases h with ⟨e, _⟩ | ⟨e, _⟩ | ⟨r, _, ⟨_, e⟩ | ⟨_, _, _, ⟨_, e⟩ | ⟨_, _, _, _, e⟩ | ⟨_, _, e⟩⟩⟩ <;>
    cases e <;> exact .some rfl rfl

theorem finish_adds {c c' : Conn} {id : Nat} {o : Outcome} (h : c.finish id o = .ok c') : Adds c c' [] := by
  rcases finish_cases h with ⟨_, e⟩ | ⟨u, _, ⟨_, e⟩ | ⟨_, _, e⟩⟩
  · cases e; exact .same rfl
  · cases e; exact .some complete_log rfl
  · cases e

theorem suback_adds {c c' : Conn} {chan id codes : Nat} (h : c.suback chan id codes = .ok c') : Adds c c' [] := by
  unfold Conn.suback at h
  split at h
  · cases h; exact .same rfl
  · split at h
    · cases h
    · split at h
      · cases h
      · split at h
        · cases h; exact .some rfl rfl
        · exact finish_adds h

theorem release_adds {c c' : Conn} (h : c.release = .ok c') : Adds c c' [] := by
  rcases release_cases h with ⟨rfl, _⟩ | ⟨rfl, _⟩
  · exact .same rfl
  · refine .some (t := c.pending.map (.completed · .destroyed) ++ [.destroyed]) (by simp [Conn.destroyFinal]) ?_
    rw [notices, List.filterMap_append, List.filterMap_map]
    simp [notice, Function.comp_def]

theorem schedule_adds {c c' : Conn} (h : c.schedule = .ok c') : Adds c c' [] := by
  unfold Conn.schedule at h
  split at h
  · cases h
  · cases h; exact .same rfl

theorem receive_adds {c c' : Conn} {chan : Nat} {p : Packet} (h : c.receive chan p = .ok c') : Adds c c' (passed c (.packet p)) := by
  have t1 (t : Trace) {k : List Listener311.Kind} (ht : notices [t] = k) : Adds c (c.tell t) k := .some rfl ht
  unfold Conn.receive at h
  split at h
  · cases h; exact t1 _ rfl
  · next acc =>
    cases h
    unfold Conn.connack
    split
    · next hs =>
      refine t1 _ ?_
      cases acc
      · rfl
      · simp only [passed]; rw [if_pos hs]; rfl
    · next hs =>
      split
      · next ha =>
        subst ha
        have e : passed c (.packet (.connack true)) = [.success] := by simp only [passed]; rw [if_neg hs]
        rw [e]
        simp only
        split
        · exact .some (t := [.processed chan (.connack true), .resumed]) (by simp [Conn.tell]) rfl
        · exact .some (t := [.processed chan (.connack true), .connectionComplete true]) (by simp) rfl
      · next ha =>
        have ha : acc = false := by simpa using ha
        subst ha
        exact .some rfl rfl
  · split at h
    · next hs =>
      cases h
      refine .some (t := [.rejected chan]) rfl ?_
      unfold passed
      split
      · next hp => simp_all
      · rw [if_pos hs]; rfl
      · simp_all
      · rfl
    · next hs =>
      split at h
      · cases h
        have e : ∀ q i, passed c (.packet (.publish q i)) = [.publish] := fun q i => by simp only [passed]; rw [if_neg hs]
        rw [e]
        split
        · exact .some (t := [.processed chan (.publish _ _), .replied _]) (by simp only [Conn.tell, List.append_assoc]; rfl) rfl
        · exact t1 _ rfl
      · exact (finish_adds h).after (t1 _ rfl)
      · exact (finish_adds h).after (t1 _ rfl)
      · exact (finish_adds h).after (t1 _ rfl)
      · exact (suback_adds h).after (t1 _ rfl)
      · cases h; exact .some (t := [.processed chan _, .replied _]) (by simp only [Conn.tell, List.append_assoc]; rfl) rfl
      · cases h; exact .some (t := [.processed chan _, .replied _]) (by simp only [Conn.tell, List.append_assoc]; rfl) rfl
      · cases h
        refine .some (t := [.rejected chan]) rfl ?_
        unfold passed
        split <;> simp_all
        rfl

theorem finishDisconnect_adds {c c' : Conn} {prev : State} (h : c.finishDisconnect prev = .ok c') :
    Adds c c' (if prev = .connected ∨ prev = .disconnecting then [.disconnect] else []) := by
  unfold Conn.finishDisconnect at h
  refine Adds.then ?_ (release_adds h)
  refine .some rfl ?_
  cases prev <;> rfl

theorem advance_adds {c c' : Conn} (h : c.advance = .ok c') : Adds c c' (passed c .advance) := by
  unfold Conn.advance at h
  split at h
  · next hb => cases h; simp only [passed, hb]; exact .some rfl rfl
  · next all next hb =>
    obtain ⟨rq, tb, tm, e, htm⟩ := removeAll_eq all c
    simp only at h
    rw [e] at h
    split at h
    · cases h; simp only [passed, hb]; exact .same rfl
    · simp only [passed, hb]; exact (schedule_adds h).after (.same rfl)
    · cases h; simp only [passed, hb]; exact .some rfl rfl
    · cases h; simp only [passed, hb]; exact .same rfl
    · next prev h1 h2 h3 =>
      have : Adds c c' (if prev = .connected ∨ prev = .disconnecting then [.disconnect] else []) := (finishDisconnect_adds h :)
      cases prev with
      | connecting => simpa [passed, hb] using this
      | disconnecting => simpa [passed, hb] using this
      | connected => exact absurd rfl h2
      | reconnecting => exact absurd rfl h1
      | disconnected => exact absurd rfl h3
  · next hb =>
    split at h
    · next hd => simp only [passed, hb, hd, if_true]; exact finishDisconnect_adds h
    · next hd => simp only [passed, hb, hd, if_false]; exact (schedule_adds h).after (.same rfl)
  · next h1 h2 h3 =>
    cases h
    cases hb : c.busy with
    | idle => simp only [passed, hb]; exact .same rfl
    | launching => simp only [passed, hb]; exact .same rfl
    | interrupted => exact absurd hb (h3 · )
    | cancelling all todo next =>
      cases todo with
      | nil => exact absurd hb (h2 _ _)
      | cons u t => exact absurd hb (h1 _ _ _ _)

/-- An event tells listeners what it tells the user, but for a disconnect that is told by the reconnect task. -/
theorem step_adds {c c' : Conn} {e : Event} (h : step c e = .ok c') :
    Adds c c' (passed c e ++ if e.atRest c then [.disconnect] else []) := by
  have no {e : Event} {k : List Listener311.Kind} (he : e.atRest c = false) (h : Adds c c' k) :
      Adds c c' (k ++ if e.atRest c then [.disconnect] else []) := by
    rw [he]; simpa using h
  cases e with
  | create kind size => exact create_adds h
  | connect clean =>
    cases h
    show Adds _ _ []
    unfold Conn.connect
    split
    · exact .some rfl rfl
    · exact .same rfl
  | launch ok => cases h; cases ok <;> exact Adds.some (ks := []) rfl rfl
  | advance => exact no rfl (advance_adds h)
  | disconnect => cases h; refine Adds.same ?_; unfold Conn.disconnect; split <;> rfl
  | acquire => cases h; exact Adds.same rfl
  | release => exact (release_adds h).after (.same rfl)
  | setup r =>
    cases h
    show Adds _ _ []
    cases r with
    | failed => exact .same rfl
    | refused => exact .same rfl
    | unsent =>
      simp only [Conn.setup]
      split
      · exact .same rfl
      · exact .some rfl rfl
    | opened =>
      simp only [Conn.setup]
      split
      · exact .same rfl
      · exact .some rfl rfl
  | packet p =>
    simp only [Client311.step] at h
    split at h
    · cases h
    · exact no rfl (receive_adds h)
  | ping => exact create_adds h
  | run k result =>
    show Adds _ _ []
    simp only [Client311.step] at h
    split at h
    · cases h; exact .same rfl
    · next uid chan hk =>
      cases h
      unfold Conn.send
      split
      · exact .same rfl
      · next r hr =>
        split
        · exact .some complete_log rfl
        · simp only
          split
          · exact .some complete_log rfl
          · exact .some (t := [.sent uid chan r.initiated, .completed uid .success]) (by rw [complete_log]; simp [Conn.tell]) rfl
        · exact .some (t := [.sent uid chan r.initiated]) change_log rfl
  | cancel k =>
    show Adds _ _ []
    simp only [Client311.step] at h
    split at h
    · cases h; exact .same rfl
    · cases h
      unfold Conn.cancelled
      split
      · exact .same rfl
      · split
        · exact .same change_log
        · exact .some complete_log rfl
  | timeout uid =>
    show Adds _ _ []
    simp only [Client311.step] at h
    split at h
    · cases h
    · exact finish_adds h
  | attempt ok =>
    simp only [Client311.step, Conn.attempt] at h
    split at h
    · next hst =>
      split at h
      · next hsl => cases h; exact no (by simp [Event.atRest, hsl]) (.same rfl)
      · next hsl =>
        have e : (Event.attempt ok).atRest c = true := by simpa [Event.atRest, hst] using hsl
        rw [e]
        refine Adds.then ?_ (release_adds h)
        exact .some (t := [.disconnected]) rfl rfl
    · next hst => split at h <;> cases h <;> exact no (by simp [Event.atRest, hst]) (.same rfl)
  | disconnectTask => cases h; exact Adds.same rfl
  | close => cases h; exact Adds.same rfl
  | shutdown => cases h; exact Adds.same rfl

theorem notices_append (a b : List Trace) : notices (a ++ b) = notices a ++ notices b := List.filterMap_append

/-! ### Who has been told of the connection, and has not been told that it was lost, has one -/

theorem online_append {a b : List Listener311.Kind} : online (a ++ b) = b.foldl (fun up k => match k with
    | .success => true
    | .interrupted => false
    | .disconnect => false
    | .publish => up) (online a) := List.foldl_append ..

/-- `s_mqtt_client_shutdown` is about to tell that an established connection has ended. -/
def Busy.telling : Busy → Bool
  | .cancelling _ _ (.shutdown .connected) => true
  | .cancelling _ _ (.shutdown .disconnecting) => true
  | _ => false

/-- The user has been told of a connection only while there is one or its end is about to be told. -/
def Live (c : Conn) : Prop := online (notices c.log) = true →
  (c.chan ≠ none ∧ (c.state = .connected ∨ c.state = .disconnecting)) ∨ c.busy.telling = true

theorem online_mild {l : List Trace} (h : ∀ t ∈ l, isLink t = false) (b : List Listener311.Kind) :
    online (b ++ notices l) = online b := by
  induction l generalizing b with
  | nil => simp [notices]
  | cons t l ih =>
    have h1 := h t (by simp)
    have h2 := ih (fun t ht => h t (by simp [ht])) 
    cases hn : notice t with
    | none => simpa [notices, hn] using h2 b
    | some k =>
      have hk : k = .publish := by
        unfold notice at hn
        split at hn <;> first | (cases h1; done) | simp_all
      subst hk
      have := h2 (b ++ [.publish])
      simp only [notices, List.filterMap_cons, hn, List.append_assoc, List.singleton_append] at this ⊢
      rw [this, online_append]; rfl

theorem mild_chan {c c' : Conn} {e : Event} (hc : Ctl c) (he : Enabled c e = true) (hs : step c e = .ok c')
    (hm : e.isMild = true) : c'.chan = c.chan := by
  by_cases ha : e.isAside = true
  · obtain ⟨g, w, a⟩ := (step_aside hc he hs ha).1
    exact a.chan
  · cases e with
    | release =>
      rcases release_cases hs with ⟨rfl, _⟩ | ⟨rfl, _⟩ <;> rfl
    | acquire => cases hs; rfl
    | disconnectTask => cases hs; rfl
    | close => cases hs; rfl
    | packet p => cases p <;> first | cases hm; done | exact absurd rfl ha
    | _ => first | cases hm; done | exact absurd rfl ha

theorem Live.ended {c c' : Conn} {ks : List Listener311.Kind} {k : Listener311.Kind} (h : Adds c c' (ks ++ [k]))
    (hk : k = .interrupted ∨ k = .disconnect) : Live c' := by
  obtain ⟨t, e, ht⟩ := h
  intro ho
  rw [e, notices_append, ht, ← List.append_assoc, online_append] at ho
  rcases hk with rfl | rfl <;> simp at ho

theorem Live.quiet {c c' : Conn} (h : Live c) (ha : Adds c c' [])
    (hl : (c.chan ≠ none ∧ (c.state = .connected ∨ c.state = .disconnecting)) ∨ c.busy.telling = true →
      (c'.chan ≠ none ∧ (c'.state = .connected ∨ c'.state = .disconnecting)) ∨ c'.busy.telling = true) : Live c' := by
  obtain ⟨t, e, ht⟩ := ha
  intro ho
  rw [e, notices_append, ht, List.append_nil] at ho
  exact hl (h ho)

theorem Live.step {c c' : Conn} {e : Event} (h : Live c) (hc : Ctl c) (he : Enabled c e = true)
    (hs : Client311.step c e = .ok c') : Live c' := by
  have ad := step_adds hs
  by_cases hm : e.isMild = true
  · obtain ⟨m1, m2, l, m3, m4⟩ := step_mild hs hm
    intro ho
    rw [m3, notices_append, online_mild m4] at ho
    rw [mild_chan hc he hs hm, m1, m2]
    exact h ho
  cases e with
  | connect clean =>
    refine h.quiet ad fun hx => ?_
    cases hs
    unfold Conn.connect
    split
    · exact hx
    · next hst =>
      have hst : c.state = .disconnected := by simpa using hst
      obtain ⟨h1, _, h3, _⟩ := hc.off hst
      rw [h1, h3] at hx
      rcases hx with ⟨hx, _⟩ | hx
      · exact absurd rfl hx
      · cases hx
  | launch ok =>
    refine h.quiet ad fun hx => ?_
    simp only [Enabled, decide_eq_true_eq] at he
    have := (hc.busyOpen (by rw [he]; simp)).2.1
    rw [he, this] at hx
    rcases hx with ⟨hx, _⟩ | hx
    · exact absurd rfl hx
    · cases hx
  | disconnect =>
    refine h.quiet ad fun hx => ?_
    cases hs
    unfold Conn.disconnect
    split
    · rcases hx with hx | hx
      · exact .inl ⟨hx.1, .inr rfl⟩
      · exact .inr hx
    · exact hx
  | setup r =>
    refine h.quiet ad fun hx => ?_
    simp only [Enabled, decide_eq_true_eq] at he
    have hnd : c.state ≠ .disconnected := fun e => by
      have := (hc.off e).2.1; rw [he.2] at this; cases this
    have hch : c.chan = none := by
      rcases hc.driver hnd he.1 with ⟨_, e, _⟩ | ⟨e, _⟩ | ⟨e, _⟩
      · exact e
      · rw [he.2] at e; cases e
      · rw [he.2] at e; cases e
    rw [he.1, hch] at hx
    rcases hx with ⟨hx, _⟩ | hx
    · exact absurd rfl hx
    · cases hx
  | attempt ok =>
    simp only [Enabled, decide_eq_true_eq] at he
    have hst := hc.scheduled he.2
    have hnd : c.state ≠ .disconnected := by rcases hst with e | e <;> rw [e] <;> simp
    have hch : c.chan = none := by
      rcases hc.driver hnd he.1 with ⟨_, _, e⟩ | ⟨_, _, e⟩ | ⟨_, e, _⟩
      · exact absurd he.2 e
      · exact absurd he.2 e
      · exact e
    by_cases hr : (Event.attempt ok).atRest c = true
    · rw [hr] at ad
      exact Live.ended ad (.inr rfl)
    · rw [if_neg hr] at ad
      refine h.quiet ad fun hx => ?_
      rw [he.1, hch] at hx
      rcases hx with ⟨hx, _⟩ | hx
      · exact absurd rfl hx
      · cases hx
  | shutdown =>
    refine h.quiet ad fun hx => ?_
    simp only [Enabled, decide_eq_true_eq] at he
    cases hs
    rw [he.1] at hx
    rcases hx with ⟨_, hx | hx⟩ | hx
    · exact .inr (by simp only [Conn.shutdown, hx]; rfl)
    · exact .inr (by simp only [Conn.shutdown, hx]; rfl)
    · cases hx
  | packet p =>
    simp only [Enabled, decide_eq_true_eq] at he
    simp only [Client311.step] at hs
    split at hs
    · cases hs
    next n hn =>
    cases p with
    | connack acc =>
      cases hs
      unfold Conn.connack at ad ⊢
      split
      · next hd => exact h.quiet (.some (t := [.processed n (.connack acc)]) rfl rfl) id
      · cases acc with
        | true =>
          intro _
          refine .inl ?_
          rw [if_pos rfl]
          simp only
          split <;> exact ⟨by simp [Conn.tell, hn], .inl rfl⟩
        | false => exact h.quiet (.some (t := [.processed n (.connack false), .rejected n]) rfl rfl) id
    | _ => exact absurd rfl hm
  | advance =>
    simp only [Enabled, decide_eq_true_eq] at he
    have hch := (hc.busyOpen he.1).2.1
    have rest (hb : c.busy.telling = false) (ha : Adds c c' []) : Live c' := by
      refine h.quiet ha fun hx => ?_
      rw [hb, hch] at hx
      rcases hx with ⟨hx, _⟩ | hx
      · exact absurd rfl hx
      · cases hx
    have no : (Event.advance).atRest c = false := rfl
    rw [no] at ad
    simp only [Bool.false_eq_true, if_false, List.append_nil] at ad
    cases hb : c.busy with
    | idle => exact absurd hb he.1
    | launching => exact absurd hb he.2
    | interrupted =>
      simp only [passed, hb] at ad
      split at ad
      · exact Live.ended (ks := []) ad (.inr rfl)
      · exact rest (by rw [hb]; rfl) ad
    | cancelling all todo next =>
      cases todo with
      | cons u todo =>
        simp only [passed, hb] at ad
        refine h.quiet ad fun hx => ?_
        rw [hch, hb] at hx
        simp only [Client311.step, Conn.advance, hb] at hs
        cases hs
        refine hx.imp (fun hx => absurd rfl hx.1) fun hx => ?_
        cases next with
        | connect => exact hx
        | shutdown p => cases p <;> exact hx
      | nil =>
        cases next with
        | connect => simp only [passed, hb] at ad; exact rest (by rw [hb]; rfl) ad
        | shutdown p =>
          cases p with
          | connected => simp only [passed, hb] at ad; exact Live.ended (ks := []) ad (.inl rfl)
          | disconnecting => simp only [passed, hb] at ad; exact Live.ended (ks := []) ad (.inr rfl)
          | _ => simp only [passed, hb] at ad; exact rest (by rw [hb]; rfl) ad
  | _ => exact absurd rfl hm

theorem Reachable.live {allowed : Conn → Event → Prop} {c : Conn} (h : Reachable allowed c) : Live c := by
  induction h with
  | init => intro h; cases h
  | step h _ he _ hs ih => exact ih.step h.inv.1 he hs

/-- A connection that waits to reconnect is not one that its user takes for established. -/
theorem Reachable.resting {allowed : Conn → Event → Prop} {c : Conn} (h : Reachable allowed c) {e : Event}
    (he : Enabled c e = true) (hr : e.atRest c = true) : online (notices c.log) = false := by
  cases e with
  | attempt ok =>
    simp only [Enabled, decide_eq_true_eq] at he
    have hc := h.inv.1
    have hnd : c.state ≠ .disconnected := by rcases hc.scheduled he.2 with e | e <;> rw [e] <;> simp
    have hch : c.chan = none := by
      rcases hc.driver hnd he.1 with ⟨_, _, e⟩ | ⟨_, _, e⟩ | ⟨_, e, _⟩
      · exact absurd he.2 e
      · exact absurd he.2 e
      · exact e
    have hl := h.live
    unfold Live at hl
    rw [hch, he.1] at hl
    simpa [Busy.telling] using hl
  | _ => cases hr

theorem Heard.reachable {allowed : Conn → Event → Prop} {c : Conn} {l : List Listener311.Kind} (h : Heard allowed c l) :
    Reachable allowed c := by
  induction h with
  | init => exact .init
  | step _ hd he ha hs ih => exact .step ih hd he ha hs

theorem Reachable.heard {allowed : Conn → Event → Prop} {c : Conn} (h : Reachable allowed c) : ∃ l, Heard allowed c l := by
  induction h with
  | init => exact ⟨_, .init⟩
  | step _ hd he ha hs ih => obtain ⟨l, ih⟩ := ih; exact ⟨_, .step ih hd he ha hs⟩

end Mqtt.Client311
