import Verif.Lemmas.Client311Link
import Verif.Spec.Client311Life

/-! The callbacks of a 3.1.1 connection come in order. -/
namespace Mqtt.Client311

theorem lifeFrom_append (l : Life) (a b : List Trace) : lifeFrom l (a ++ b) = (lifeFrom l a).bind (lifeFrom · b) := by
  induction a generalizing l with
  | nil => rfl
  | cons t a ih =>
    simp only [List.cons_append, lifeFrom]
    cases l.next t with
    | none => rfl
    | some l' => simp only [Option.bind_some, ih]

theorem next_mild {l : Life} {t : Trace} (h : isLink t = false) : l.next t = some l := by
  cases t with
  | connecting => cases h
  | connectionComplete => cases h
  | resumed => cases h
  | interrupted => cases h
  | disconnected => cases h
  | _ => cases l <;> rfl

theorem lifeFrom_mild {l : Life} {ts : List Trace} (h : ∀ t ∈ ts, isLink t = false) : lifeFrom l ts = some l := by
  induction ts with
  | nil => rfl
  | cons t ts ih =>
    simp only [lifeFrom, next_mild (h t (by simp)), Option.bind_some]
    exact ih fun t ht => h t (by simp [ht])

/-- `s_mqtt_client_shutdown` is about to invoke `on_interrupted`. -/
def Busy.losing : Busy → Bool
  | .cancelling _ _ (.shutdown .connected) => true
  | _ => false

/-- What has been told, by where the connection is. -/
def Fits (s : State) (b : Busy) (l : Life) : Prop :=
  match s with
  | .disconnected => l = .none
  | .connecting => l = if b.inConnect then .none else .asked
  | .connected => l = .up
  | .reconnecting => l = if b.losing then .up else .lost
  | .disconnecting => l = .up ∨ (l = .lost ∧ b.losing = false)

def Told (c : Conn) : Prop := ∃ l, life c.log = some l ∧ Fits c.state c.busy l

theorem Told.mild {c c' : Conn} (h : Told c) (m : Mild c c') : Told c' := by
  obtain ⟨s, b, l, e, hl⟩ := m
  obtain ⟨x, h1, h2⟩ := h
  refine ⟨x, ?_, by rw [s, b]; exact h2⟩
  unfold life at *
  rw [e, lifeFrom_append, h1, Option.bind_some, lifeFrom_mild hl]

theorem Told.other {c c' : Conn} (h : Told c) {l : List Trace} (e : c'.log = c.log ++ l)
    (hl : ∀ x, Fits c.state c.busy x → ∃ y, lifeFrom x l = some y ∧ Fits c'.state c'.busy y) : Told c' := by
  obtain ⟨x, h1, h2⟩ := h
  obtain ⟨y, h3, h4⟩ := hl x h2
  refine ⟨y, ?_, h4⟩
  unfold life at *
  rw [e, lifeFrom_append, h1, Option.bind_some, h3]

/-- Nothing told. -/
theorem Told.quiet {c c' : Conn} (h : Told c) (e : c'.log = c.log)
    (hl : ∀ x, Fits c.state c.busy x → Fits c'.state c'.busy x) : Told c' :=
  h.other (l := []) (by simp [e]) fun x hx => ⟨x, rfl, hl x hx⟩

theorem Told.shutdown {c : Conn} (h : Told c) (hb : c.busy = .idle) (hd : c.state ≠ .disconnected) :
    Told c.shutdown := by
  refine h.quiet rfl fun x hx => ?_
  rw [hb] at hx
  simp only [Conn.shutdown]
  cases hst : c.state with
  | disconnected => exact absurd hst hd
  | _ => rw [hst] at hx; simpa [Fits, Busy.inConnect, Busy.losing] using hx

theorem Told.finishDisconnect {c c' : Conn} (h : Told c) {prev : State} (hp : prev = .connecting ↔ c.state = .connecting)
    (hd : c.state ≠ .disconnected) (hr : prev ≠ .reconnecting) (hr' : prev ≠ .disconnected)
    (hl : c.state = .reconnecting → c.busy.losing = false)
    (hb : c.busy.inConnect = false) (hs : c.finishDisconnect prev = .ok c') : Told c' := by
  unfold Conn.finishDisconnect at hs
  refine Told.mild ?_ (release_mild hs)
  refine h.other rfl fun x hx => ⟨.none, ?_, rfl⟩
  cases hst : c.state with
  | disconnected => exact absurd hst hd
  | connecting =>
    rw [hp.2 hst]
    simp only [hst, Fits, hb] at hx
    rw [hx]; rfl
  | connected =>
    rw [hst] at hx; cases hx
    cases prev with
    | connecting => exact absurd (hp.1 rfl) (by rw [hst]; simp)
    | reconnecting => exact absurd rfl hr
    | disconnected => exact absurd rfl hr'
    | _ => rfl
  | reconnecting =>
    simp only [hst, Fits, hl hst] at hx
    cases hx
    cases prev with
    | connecting => exact absurd (hp.1 rfl) (by rw [hst]; simp)
    | reconnecting => exact absurd rfl hr
    | disconnected => exact absurd rfl hr'
    | _ => rfl
  | disconnecting =>
    simp only [hst, Fits] at hx
    cases prev with
    | connecting => exact absurd (hp.1 rfl) (by rw [hst]; simp)
    | reconnecting => exact absurd rfl hr
    | disconnected => exact absurd rfl hr'
    | _ => rcases hx with e | ⟨e, _⟩ <;> rw [e] <;> rfl

theorem Told.schedule {c c' : Conn} (h : Told c) (hs : c.schedule = .ok c') : Told c' := by
  unfold Conn.schedule at hs
  split at hs
  · cases hs
  · cases hs; exact h

theorem Told.step {c c' : Conn} {e : Event} (h : Told c) (hc : Ctl c) (he : Enabled c e = true) (ht : ¬ e.twice c)
    (hs : step c e = .ok c') : Told c' := by
  by_cases hm : e.isMild = true
  · exact h.mild (step_mild hs hm)
  cases e with
  | connect clean =>
    cases hs
    unfold Conn.connect
    split
    · exact h.mild (Mild.one rfl rfl rfl rfl)
    · next hst =>
      have hst : c.state = .disconnected := by simpa using hst
      refine h.quiet rfl fun x hx => ?_
      rw [hst] at hx
      exact hx
  | launch ok =>
    simp only [Enabled, decide_eq_true_eq] at he
    obtain ⟨hst, _⟩ := hc.conn (by rw [he]; rfl)
    cases hs
    cases ok with
    | true =>
      refine h.other (l := [.connecting]) rfl fun x hx => ⟨.asked, ?_, ?_⟩
      · rw [hst, he] at hx; cases hx; rfl
      · simp only [Conn.launch, if_true, hst]; rfl
    | false =>
      refine h.other (l := [.connectRefused]) rfl fun x hx => ⟨.none, ?_, rfl⟩
      rw [hst, he] at hx; cases hx; rfl
  | advance =>
    simp only [Client311.step, Conn.advance] at hs
    split at hs
    · next all uid todo next hb =>
      cases hs
      refine h.other (l := [.completed uid .cleanSession]) rfl fun x hx => ⟨x, by cases x <;> rfl, ?_⟩
      rw [hb] at hx
      cases next with
      | connect => exact hx
      | shutdown p => cases p <;> exact hx
    · next all next hb =>
      obtain ⟨rq, tb, tm, e, _⟩ := removeAll_eq all c
      rw [e] at hs
      simp only at hs
      split at hs
      · cases hs
        refine h.quiet rfl fun x hx => ?_
        rw [hb] at hx
        obtain ⟨hst, _⟩ := hc.conn (by rw [hb]; rfl)
        rw [hst] at hx
        simp only [hst]
        exact hx
      · next =>
        have hst := hc.shut _ _ _ hb
        refine Told.schedule ?_ hs
        refine h.quiet rfl fun x hx => ?_
        rw [hb] at hx
        rcases hst with ⟨e, _⟩ | ⟨e, _⟩ | ⟨_, e | e, _⟩
        · cases e
        · cases e
        · simp only [e] at hx ⊢; exact hx
        · simp only [e] at hx ⊢; exact hx
      · next =>
        have hst := hc.shut _ _ _ hb
        cases hs
        refine h.other (l := [.interrupted]) rfl fun x hx => ⟨.lost, ?_, ?_⟩
        · rw [hb] at hx
          rcases hst with ⟨e, _⟩ | ⟨e, _⟩ | ⟨_, e | e, _⟩
          · cases e
          · cases e
          · rw [e] at hx; cases hx; rfl
          · rw [e] at hx
            rcases hx with hx | ⟨_, hx⟩
            · cases hx; rfl
            · cases hx
        · rcases hst with ⟨e, _⟩ | ⟨e, _⟩ | ⟨_, e | e, _⟩
          · cases e
          · cases e
          · simp only [e]; rfl
          · simp only [e]; exact .inr ⟨rfl, rfl⟩
      · next =>
        rcases hc.shut _ _ _ hb with ⟨e, _⟩ | ⟨e, _⟩ | ⟨e | e, _⟩ <;> cases e
      · next prev hp1 hp2 hp3 =>
        have hst := hc.shut _ _ _ hb
        have hst : (prev = .connecting ∧ c.state = .connecting) ∨ (prev = .disconnecting ∧ c.state = .disconnecting) := by
          rcases hst with e | e | ⟨e | e, _⟩
          · exact .inl e
          · exact .inr e
          · exact absurd e hp2
          · exact absurd e hp1
        refine Told.finishDisconnect (c := { c with reqs := rq, table := tb, timers := tm }) (h.quiet rfl fun _ hx => hx)
          ?_ ?_ hp1 hp3 ?_ ?_ hs
        · show prev = .connecting ↔ c.state = .connecting
          rcases hst with ⟨e1, e2⟩ | ⟨e1, e2⟩ <;> simp [e1, e2]
        · show c.state ≠ .disconnected
          rcases hst with ⟨_, e2⟩ | ⟨_, e2⟩ <;> simp [e2]
        · show c.state = .reconnecting → c.busy.losing = false
          rcases hst with ⟨_, e2⟩ | ⟨_, e2⟩ <;> simp [e2]
        · show c.busy.inConnect = false
          rw [hb]; rfl
    · next hb =>
      obtain ⟨hst, _⟩ := hc.intr hb
      split at hs
      · next hd =>
        exact h.finishDisconnect (by simp [hd]) (by simp [hd]) (by simp) (by simp) (by simp [hd]) (by rw [hb]; rfl) hs
      · next hd =>
        refine Told.schedule ?_ hs
        refine h.quiet rfl fun x hx => ?_
        rw [hb] at hx
        have hst : c.state = .reconnecting := hst.resolve_right hd
        simp only [hst] at hx ⊢; exact hx
    · cases hs; exact h
  | disconnect =>
    cases hs
    unfold Conn.disconnect
    split
    · next hst =>
      refine h.quiet rfl fun x hx => ?_
      rcases hst with e | e
      · rw [e] at hx; exact .inl hx
      · rw [e] at hx
        simp only [Fits] at hx ⊢
        split at hx
        · exact .inl hx
        · next hb => exact .inr ⟨hx, by simpa using hb⟩
    · exact h
  | setup r =>
    simp only [Enabled, decide_eq_true_eq] at he
    have hnd : c.state ≠ .disconnected := fun e => by
      have := (hc.off e).2.1; rw [he.2] at this; cases this
    have shut := h.shutdown he.1 hnd
    cases hs
    cases r with
    | failed => exact shut
    | refused => exact h.mild (Mild.same rfl rfl rfl)
    | unsent =>
      simp only [Event.twice, not_or] at ht
      simp only [Conn.setup]
      split
      · exact h.mild (Mild.same rfl rfl rfl)
      · next hd =>
        exfalso
        cases hst : c.state with
        | connecting => exact ht.1 hst
        | reconnecting => exact ht.2 hst
        | disconnecting => exact hd hst
        | disconnected => exact hnd hst
        | connected =>
          have h1 := (hc.connected hst).1
          rcases hc.driver (by rw [hst]; simp) he.1 with ⟨_, e, _⟩ | ⟨e, _⟩ | ⟨e, _⟩
          · have := (hc.noChan e).1; rw [h1] at this; cases this
          · rw [he.2] at e; cases e
          · rw [he.2] at e; cases e
    | opened =>
      simp only [Conn.setup]
      split
      · exact h.mild (Mild.same rfl rfl rfl)
      · exact h.mild (Mild.one (t := .opened c.nextChan) rfl rfl rfl rfl)
  | packet p =>
    simp only [Enabled, decide_eq_true_eq] at he
    simp only [Client311.step] at hs
    split at hs
    · cases hs
    next n hn =>
    cases p with
    | connack acc =>
      cases hs
      unfold Conn.connack
      split
      · exact h.mild (Mild.one rfl rfl rfl rfl)
      · next hd =>
        have hd : c.state ≠ .disconnecting ∧ c.state ≠ .disconnected := ⟨fun e => hd (.inl e), fun e => hd (.inr e)⟩
        cases acc with
        | true =>
          simp only [Event.twice] at ht
          rw [if_pos rfl]
          simp only
          split
          · next hw =>
            have hw : c.state = .reconnecting := by simpa using hw.1
            refine h.other (l := [.processed n (.connack true), .resumed]) (by simp [Conn.tell]) fun x hx => ⟨.up, ?_, rfl⟩
            rw [hw, he.1] at hx; cases hx; rfl
          · next hw =>
            have hst : c.state = .connecting := by
              cases hst : c.state with
              | connecting => rfl
              | connected => exact absurd hst ht
              | disconnecting => exact absurd hst hd.1
              | disconnected => exact absurd hst hd.2
              | reconnecting =>
                exfalso
                apply hw
                have := (hc.reconnecting hst).2
                exact ⟨by simp [hst], Nat.lt_of_le_of_ne (by omega) (by omega)⟩
            refine h.other (l := [.processed n (.connack true), .connectionComplete true]) (by simp)
              fun x hx => ⟨.up, ?_, rfl⟩
            rw [hst, he.1] at hx; cases hx; rfl
        | false =>
          rw [if_neg (by simp)]
          exact h.other (l := [.processed n (.connack false), .rejected n]) rfl
            fun x hx => ⟨x, by cases x <;> rfl, hx⟩
    | _ => exact absurd rfl hm
  | attempt ok =>
    simp only [Enabled, decide_eq_true_eq] at he
    simp only [Client311.step, Conn.attempt] at hs
    split at hs
    · next hst =>
      split at hs
      · cases hs; exact h.mild (Mild.same rfl rfl rfl)
      · refine Told.mild ?_ (release_mild hs)
        refine h.other (l := [.disconnected]) rfl fun x hx => ⟨.none, ?_, rfl⟩
        rw [hst] at hx
        rcases hx with e | ⟨e, _⟩ <;> rw [e] <;> rfl
    · split at hs <;> cases hs <;> exact h.mild (Mild.same rfl rfl rfl)
  | shutdown =>
    simp only [Enabled, decide_eq_true_eq] at he
    cases hs
    exact h.shutdown he.1 fun e => he.2.1 (hc.off e).2.2.1
  | _ => exact absurd rfl hm

theorem Reachable.told {c : Conn} {allowed : Conn → Event → Prop} (h : Reachable allowed c)
    (ha : ∀ c e, allowed c e → ¬ e.twice c) : Told c := by
  induction h with
  | init => exact ⟨.none, rfl, rfl⟩
  | step h0 _ he hal hs ih => exact ih.step h0.inv.1 he (ha _ _ hal) hs

end Mqtt.Client311
