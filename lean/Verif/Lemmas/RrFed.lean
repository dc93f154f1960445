import Verif.Lemmas.RrSound

/-!
Every listener of an established request subscription has been told, or has acquired it when it was established.
-/
namespace Mqtt.Rr

/-- Entries that change neither what the server has nor who was told of a success. -/
def Trace.quiet : Trace → Bool
  | .finished .. | .sessionLost => false
  | .status s => s.type != .subscribeSuccess
  | _ => true

/-- The log has grown by such entries. -/
def Hush (log log' : List Trace) : Prop := ∃ new, log' = log ++ new ∧ ∀ e ∈ new, e.quiet = true

theorem Hush.refl {log : List Trace} : Hush log log := ⟨[], by simp, by simp⟩

theorem Hush.trans {a b c : List Trace} (h1 : Hush a b) (h2 : Hush b c) : Hush a c := by
  obtain ⟨n1, rfl, h1⟩ := h1
  obtain ⟨n2, rfl, h2⟩ := h2
  refine ⟨n1 ++ n2, by simp, ?_⟩
  intro s hs
  rcases List.mem_append.1 hs with hs | hs
  · exact h1 s hs
  · exact h2 s hs

theorem Hush.one {log : List Trace} {e : Trace} (h : e.quiet = true) : Hush log (log ++ [e]) :=
  ⟨[e], rfl, by simpa using h⟩

theorem Hush.broker {log log' : List Trace} (h : Hush log log') (f : Bytes) : broker log' f = broker log f := by
  obtain ⟨new, rfl, hn⟩ := h
  refine append_induct (·.quiet = true) (fun l => Rr.broker l f) ?_ hn log
  intro log e he
  rw [broker_one]
  cases e <;> simp_all [Trace.quiet]

/-- A success told to an operation. -/
def isSuccess (i : Nat) : Trace → Bool
  | .status s => s.type == .subscribeSuccess && s.op == i
  | _ => false

/-- How often an operation was told of a success. -/
def told (log : List Trace) (i : Nat) : Nat := log.countP (isSuccess i)

theorem told_append (a b : List Trace) (i : Nat) : told (a ++ b) i = told a i + told b i := List.countP_append

theorem Hush.told {log log' : List Trace} (h : Hush log log') (i : Nat) : told log' i = told log i := by
  obtain ⟨new, rfl, hn⟩ := h
  rw [told_append]
  have : Rr.told new i = 0 := by
    unfold Rr.told
    rw [List.countP_eq_zero]
    intro e he
    have := hn e he
    cases e <;> simp_all [Trace.quiet, isSuccess]
  omega

/-- Why an operation does not wait for a subscription the server has: it was told, or the subscription was there when the
operation acquired it. -/
def Fed (log : List Trace) (f : Bytes) (i : Nat) : Prop :=
  Trace.status ⟨.subscribeSuccess, f, i⟩ ∈ log ∨ ∃ a b k, log = a ++ .acquired i f k :: b ∧ broker a f = true

theorem Fed.append {log : List Trace} {f : Bytes} {i : Nat} (h : Fed log f i) (new : List Trace) : Fed (log ++ new) f i := by
  rcases h with h | ⟨a, b, k, h, hb⟩
  · exact .inl (by simp [h])
  · exact .inr ⟨a, b ++ new, k, by rw [h]; simp, hb⟩

/-- A record against the log. -/
def FRec (f : Bytes) (r : Record) (log : List Trace) : Prop :=
  r.subscribed = true → broker log f = true ∧ (r.kind = .request → ∀ i ∈ r.listeners, Fed log f i)

/-- All records against the log. -/
def FAll (m : AMap Bytes Record) (log : List Trace) : Prop := ∀ e ∈ m, FRec e.1 e.2 log

theorem FRec.append {f : Bytes} {r : Record} {log new : List Trace} (h : FRec f r log)
    (hb : broker (log ++ new) f = broker log f) : FRec f r (log ++ new) := by
  intro hs
  obtain ⟨h1, h2⟩ := h hs
  exact ⟨by rw [hb]; exact h1, fun hk i hi => (h2 hk i hi).append new⟩

theorem FRec.hush {f : Bytes} {r : Record} {log log' : List Trace} (h : FRec f r log) (hh : Hush log log') :
    FRec f r log' := by
  have hb := hh.broker f
  obtain ⟨new, rfl, _⟩ := hh
  exact h.append hb

theorem FAll.hush {m : AMap Bytes Record} {log log' : List Trace} (h : FAll m log) (hh : Hush log log') :
    FAll m log' := fun e he => (h e he).hush hh

theorem FRec.of {f : Bytes} {r r' : Record} {log : List Trace} (h : FRec f r log)
    (hs : r'.subscribed = true → r.subscribed = true) (hk : r'.kind = r.kind) (hl : ∀ i ∈ r'.listeners, i ∈ r.listeners) :
    FRec f r' log := by
  intro hx
  obtain ⟨h1, h2⟩ := h (hs hx)
  exact ⟨h1, fun hy i hi => h2 (hk ▸ hy) i (hl i hi)⟩

theorem FAll.get {m : AMap Bytes Record} {log : List Trace} (h : FAll m log) {f : Bytes} {r : Record}
    (hg : m.get f = some r) : FRec f r log := h (f, r) (AMap.get_some_mem hg)

theorem FAll.set {m : AMap Bytes Record} {log : List Trace} {f : Bytes} {r : Record}
    (h : ∀ e ∈ m, e.1 ≠ f → FRec e.1 e.2 log) (hr : FRec f r log) : FAll (m.set f r) log := by
  intro e he
  rcases List.mem_cons.1 he with rfl | he
  · exact hr
  · obtain ⟨h1, h2⟩ := List.mem_filter.1 he
    exact h e h1 (by simpa using h2)

theorem unsubscribe_fed (env : Env) (f : Bytes) (r : Record) (b : Bool) (log : List Trace) :
    (unsubscribe env f r b log).1.listeners = r.listeners ∧ (unsubscribe env f r b log).1.kind = r.kind ∧
      (unsubscribe env f r b log).1.subscribed = r.subscribed ∧ Hush log (unsubscribe env f r b log).2 := by
  unfold unsubscribe
  split
  · split
    · exact ⟨rfl, rfl, rfl, .one rfl⟩
    · exact ⟨rfl, rfl, rfl, .refl⟩
  · exact ⟨rfl, rfl, rfl, .refl⟩

theorem emit_hush {f : Bytes} {r : Record} {t : StatusType} {log log' : List Trace} (ht : t ≠ .subscribeSuccess)
    (h : emit f r t log = .ok log') : Hush log log' := by
  unfold emit at h
  split at h
  · cases h
    refine ⟨_, rfl, ?_⟩
    intro e he
    obtain ⟨i, _, rfl⟩ := List.mem_map.1 he
    simpa [Trace.quiet] using ht
  · cases h

theorem activate_fed {connected : Bool} {env : Env} {f : Bytes} {r r' : Record} {ok : Bool} {log log' : List Trace}
    (h : activate connected env f r log = .ok (ok, r', log')) :
    r'.listeners = r.listeners ∧ r'.kind = r.kind ∧ r'.subscribed = r.subscribed ∧ Hush log log' := by
  unfold activate at h
  split at h
  · cases h; exact ⟨rfl, rfl, rfl, .refl⟩
  · split at h
    · split at h
      · cases h; exact ⟨rfl, rfl, rfl, .one rfl⟩
      · split at h
        · split at h
          · cases h
          · rename_i h1
            cases h
            exact ⟨rfl, rfl, rfl, emit_hush (by simp) h1⟩
        · simp only at h
          split at h
          · cases h
          · rename_i h1
            cases h
            exact ⟨rfl, rfl, rfl, emit_hush (by simp) h1⟩
    · cases h; exact ⟨rfl, rfl, rfl, .refl⟩

/-- Iterations append only quiet entries. `Pre` is what is known of the records before. -/
theorem foreach_fed {Pre : Bytes → Record → List Trace → Prop}
    (hpre : ∀ f r log log', Pre f r log → Hush log log' → Pre f r log')
    {g : Bytes → Record → List Trace → Except Fault (Option Record × List Trace)}
    (hg : ∀ f r log o log', Pre f r log → g f r log = .ok (o, log') → (∀ r', o = some r' → FRec f r' log') ∧ Hush log log') :
    ∀ {m : AMap Bytes Record} {log : List Trace} {m' : AMap Bytes Record} {log' : List Trace},
      (∀ e ∈ m, Pre e.1 e.2 log) → foreach g m log = .ok (m', log') → FAll m' log' ∧ Hush log log' := by
  intro m
  induction m with
  | nil => intro log m' log' hs h; cases h; exact ⟨(by intro e he; cases he), .refl⟩
  | cons e m ih =>
    intro log m' log' hs h
    obtain ⟨f, r⟩ := e
    simp only [foreach] at h
    split at h
    · cases h
    · rename_i o log1 h1
      split at h
      · cases h
      · rename_i m1 log2 h2
        cases h
        obtain ⟨a1, a2⟩ := hg f r log o log1 (hs (f, r) (by simp)) h1
        obtain ⟨b1, b2⟩ := ih (fun e he => hpre _ _ _ _ (hs e (by simp [he])) a2) h2
        refine ⟨?_, a2.trans b2⟩
        cases o with
        | none => exact b1
        | some r' =>
          intro e he
          rcases List.mem_cons.1 he with rfl | he
          · exact (a1 r' rfl).hush b2
          · exact b1 e he

theorem purgeOne_fed {connected : Bool} {env : Env} {f : Bytes} {r : Record} {log : List Trace} {o : Option Record}
    {log' : List Trace} (hr : FRec f r log) (h : purgeOne connected env f r log = .ok (o, log')) :
    (∀ r', o = some r' → FRec f r' log') ∧ Hush log log' := by
  unfold purgeOne at h
  split at h
  · obtain ⟨u1, u2, u3, u4⟩ := unsubscribe_fed env f r false log
    have hu : FRec f (unsubscribe env f r false log).1 (unsubscribe env f r false log).2 :=
      (hr.of (by rw [u3]; exact fun x => x) u2 (by rw [u1]; exact fun _ x => x)).hush u4
    cases connected with
    | true =>
      simp only [if_true] at h
      split at h
      · cases h; exact ⟨(by intro r' e; cases e), u4⟩
      · cases h; exact ⟨(by intro r' e; cases e; exact hu), u4⟩
    | false =>
      simp only [Bool.false_eq_true, if_false] at h
      split at h
      · cases h; exact ⟨(by intro r' e; cases e), .refl⟩
      · cases h; exact ⟨(by intro r' e; cases e; exact hr), .refl⟩
  · cases h; exact ⟨(by intro r' e; cases e; exact hr), .refl⟩

theorem purge_fed {m m' : Manager} {env : Env} (hs : FAll m.records m.log) (h : m.purge env = .ok m') :
    FAll m'.records m'.log ∧ Hush m.log m'.log := by
  unfold Manager.purge at h
  split at h
  · cases h
  · rename_i h1
    cases h
    exact foreach_fed (Pre := FRec) (fun _ _ _ _ h hh => h.hush hh) (fun f r log o log' hr h => purgeOne_fed hr h) hs h1

theorem lostOne_fed {f : Bytes} {r : Record} {log : List Trace} {o : Option Record} {log' : List Trace}
    (h : lostOne f r log = .ok (o, log')) : (∀ r', o = some r' → FRec f r' log') ∧ Hush log log' := by
  have no : ∀ {r' : Record} {log}, r'.subscribed = false → FRec f r' log := by
    intro r' log hs hx; rw [hs] at hx; cases hx
  unfold lostOne at h
  split at h
  · simp only at h
    split at h
    · split at h
      · cases h
      · rename_i h1
        cases h
        refine ⟨?_, emit_hush (by simp) h1⟩
        intro r' e
        split at e
        · cases e
        · cases e; exact no rfl
    · split at h
      · cases h
      · rename_i h1
        cases h
        refine ⟨?_, emit_hush (by simp) h1⟩
        intro r' e
        cases e; exact no rfl
  · rename_i hs
    cases h
    exact ⟨(by intro r' e; cases e; exact no (by simpa using hs)), .refl⟩

theorem activateOne_fed {connected : Bool} {env : Env} {f : Bytes} {r : Record} {log : List Trace}
    {o : Option Record} {log' : List Trace} (hr : FRec f r log)
    (h : activateOne connected env f r log = .ok (o, log')) : (∀ r', o = some r' → FRec f r' log') ∧ Hush log log' := by
  unfold activateOne at h
  split at h
  · cases h
  · rename_i h1
    cases h
    obtain ⟨a1, a2, a3, a4⟩ := activate_fed h1
    refine ⟨?_, a4⟩
    intro r' e
    cases e
    exact (hr.of (by rw [a3]; exact fun x => x) a2 (by rw [a1]; exact fun _ x => x)).hush a4

theorem resubscribeOne_fed {connected : Bool} {env : Env} {f : Bytes} {r : Record} {log : List Trace}
    {o : Option Record} {log' : List Trace} (hr : FRec f r log)
    (h : resubscribeOne connected env f r log = .ok (o, log')) : (∀ r', o = some r' → FRec f r' log') ∧ Hush log log' := by
  unfold resubscribeOne at h
  split at h
  · exact activateOne_fed hr h
  · cases h; exact ⟨(by intro r' e; cases e; exact hr), .refl⟩

/-- The log has grown, and nobody was told of a success. -/
def Mute (log log' : List Trace) : Prop := ∃ new, log' = log ++ new ∧ ∀ i, told new i = 0

theorem Mute.trans {a b c : List Trace} (h1 : Mute a b) (h2 : Mute b c) : Mute a c := by
  obtain ⟨n1, rfl, h1⟩ := h1
  obtain ⟨n2, rfl, h2⟩ := h2
  exact ⟨n1 ++ n2, by simp, fun i => by rw [told_append, h1, h2]⟩

theorem Hush.mute {log log' : List Trace} (h : Hush log log') : Mute log log' := by
  have ht := h.told
  obtain ⟨new, rfl, _⟩ := h
  refine ⟨new, rfl, fun i => ?_⟩
  have := ht i
  rw [told_append] at this
  omega

theorem Mute.told {log log' : List Trace} (h : Mute log log') (i : Nat) : told log' i = told log i := by
  obtain ⟨new, rfl, h⟩ := h
  rw [told_append, h]
  rfl

theorem Mute.refl {log : List Trace} : Mute log log := Hush.refl.mute

theorem sessionLost_fed {m m' : Manager} {env : Env} (h : m.sessionLost env = .ok m') :
    FAll m'.records m'.log ∧ Mute m.log m'.log := by
  unfold Manager.sessionLost at h
  split at h
  · cases h
  · rename_i h1
    split at h
    · cases h
    · rename_i h2
      cases h
      obtain ⟨a1, a2⟩ := foreach_fed (Pre := fun _ _ _ => True) (fun _ _ _ _ _ _ => trivial)
        (fun f r log o log' hr h => lostOne_fed h) (fun _ _ => trivial) h1
      obtain ⟨b1, b2⟩ := foreach_fed (Pre := FRec) (fun _ _ _ _ h hh => h.hush hh)
        (fun f r log o log' hr h => resubscribeOne_fed hr h) a1 h2
      refine ⟨b1, Mute.trans ⟨[.sessionLost], rfl, fun i => rfl⟩ (a2.mute.trans b2.mute)⟩

theorem onConnection_fed {m m' : Manager} {env : Env} {up joined : Bool} (hs : FAll m.records m.log)
    (h : m.onConnection env up joined = .ok m') : FAll m'.records m'.log ∧ Mute m.log m'.log := by
  unfold Manager.onConnection at h
  split at h
  · simp only at h
    split at h
    · cases h
    · rename_i m1 h1
      have hs1 : FAll m1.records m1.log ∧ Mute m.log m1.log := by
        split at h1
        · cases h1; exact ⟨hs, .refl⟩
        · exact sessionLost_fed (m := { m with connected := true }) h1
      split at h
      · cases h
      · rename_i m2 h2
        have hs2 := purge_fed hs1.1 h2
        split at h
        · cases h
        · rename_i h3
          cases h
          obtain ⟨c1, c2⟩ := foreach_fed (Pre := FRec) (fun _ _ _ _ h hh => h.hush hh)
            (fun f r log o log' hr h => activateOne_fed hr h) hs2.1 h3
          exact ⟨c1, hs1.2.trans (hs2.2.mute.trans c2.mute)⟩
  · cases h; exact ⟨hs, .refl⟩

theorem listen_fed {op : Nat} {kind : Kind} : ∀ (fs : List Bytes) (m : AMap Bytes Record) (log : List Trace) (full : Bool),
    FAll m log → FAll (listen op kind fs m log full).1 (listen op kind fs m log full).2.1 ∧
      Hush log (listen op kind fs m log full).2.1 := by
  intro fs
  induction fs with
  | nil => intro m log full hs; exact ⟨hs, .refl⟩
  | cons f fs ih =>
    intro m log full hs
    simp only [listen]
    have hh : Hush log (log ++ [.acquired op f kind]) := .one rfl
    have h1 : FAll (m.set f (addListener ((m.get f).getD { kind := kind }) op)) (log ++ [.acquired op f kind]) := by
      refine FAll.set (fun e he _ => (hs e he).hush hh) ?_
      cases hg : m.get f with
      | none => intro hx; cases hx
      | some r =>
        have hr := hs.get hg
        intro hx
        have hx : r.subscribed = true := hx
        obtain ⟨h2, h3⟩ := hr hx
        refine ⟨by rw [hh.broker]; exact h2, ?_⟩
        intro hk i hi
        have hk : r.kind = .request := hk
        have : i ∈ r.listeners ∨ i = op := by
          simp only [addListener, Option.getD_some] at hi
          split at hi
          · exact .inl hi
          · simpa using hi
        rcases this with hi | rfl
        · exact (h3 hk i hi).append _
        · exact .inr ⟨log, [], kind, rfl, h2⟩
    obtain ⟨a1, a2⟩ := ih (m.set f (addListener ((m.get f).getD { kind := kind }) op)) (log ++ [.acquired op f kind])
      (full && ((m.get f).getD { kind := kind }).subscribed) h1
    exact ⟨a1, hh.trans a2⟩

theorem activateAll_fed {connected : Bool} {env : Env} : ∀ {fs : List Bytes} {m : AMap Bytes Record} {log : List Trace}
    {ok : Bool} {m' : AMap Bytes Record} {log' : List Trace}, FAll m log →
    activateAll connected env fs m log = .ok (ok, m', log') → FAll m' log' ∧ Hush log log' := by
  intro fs
  induction fs with
  | nil => intro m log ok m' log' hs h; cases h; exact ⟨hs, .refl⟩
  | cons f fs ih =>
    intro m log ok m' log' hs h
    simp only [activateAll] at h
    split at h
    · cases h
    · rename_i r hg
      split at h
      · cases h
      · rename_i ok1 r1 log1 h1
        obtain ⟨a1, a2, a3, a4⟩ := activate_fed h1
        have h2 : FAll (m.set f r1) log1 := FAll.set (fun e he _ => (hs e he).hush a4)
          (((hs.get hg).of (by rw [a3]; exact fun x => x) a2 (by rw [a1]; exact fun _ x => x)).hush a4)
        split at h
        · obtain ⟨b1, b2⟩ := ih h2 h
          exact ⟨b1, a4.trans b2⟩
        · cases h; exact ⟨h2, a4⟩

theorem acquire_fed {cfg : Config} {m m' : Manager} {env : Env} {fs : List Bytes} {op : Nat} {kind : Kind}
    {res : Acquired} (hs : FAll m.records m.log) (h : m.acquire cfg env fs op kind = .ok (res, m')) :
    FAll m'.records m'.log ∧ Hush m.log m'.log := by
  unfold Manager.acquire at h
  split at h
  · cases h; exact ⟨hs, .refl⟩
  · split at h
    · cases h; exact ⟨hs, .refl⟩
    · split at h
      · cases h; exact ⟨hs, .refl⟩
      · simp only at h
        split at h
        · cases h; exact ⟨hs, .refl⟩
        · split at h
          · split at h <;> (cases h; exact ⟨hs, .refl⟩)
          · obtain ⟨l1, l2⟩ := listen_fed (op := op) (kind := kind) fs m.records m.log true hs
            split at h
            · cases h; exact ⟨l1, l2⟩
            · split at h
              · cases h
              · rename_i h1
                cases h
                obtain ⟨a1, a2⟩ := activateAll_fed l1 h1
                exact ⟨a1, l2.trans a2⟩

theorem listen_prefix {op : Nat} {kind : Kind} : ∀ (fs : List Bytes) (m : AMap Bytes Record) (log : List Trace)
    (full : Bool), log <+: (listen op kind fs m log full).2.1 := by
  intro fs
  induction fs with
  | nil => intro m log full; exact List.prefix_rfl
  | cons f fs ih =>
    intro m log full
    simp only [listen]
    exact (List.prefix_append _ _).trans (ih _ _ _)

theorem activateAll_prefix {connected : Bool} {env : Env} : ∀ {fs : List Bytes} {m : AMap Bytes Record} {log : List Trace}
    {ok : Bool} {m' : AMap Bytes Record} {log' : List Trace}, activateAll connected env fs m log = .ok (ok, m', log') →
    log <+: log' := by
  intro fs
  induction fs with
  | nil => intro m log ok m' log' h; cases h; exact List.prefix_rfl
  | cons f fs ih =>
    intro m log ok m' log' h
    simp only [activateAll] at h
    split at h
    · cases h
    · split at h
      · cases h
      · rename_i h1
        obtain ⟨_, _, _, new, e, _⟩ := activate_fed h1
        have hp : log <+: log ++ new := List.prefix_append _ _
        split at h
        · rw [e] at h
          exact hp.trans (ih h)
        · cases h; rw [e]; exact hp

/-- Acquiring filters that are not all established: one of them is not. -/
theorem listen_late {op : Nat} {kind : Kind} : ∀ (fs : List Bytes) (m : AMap Bytes Record) (log : List Trace) (full : Bool),
    (∀ f, broker log f = true → ∃ r, m.get f = some r ∧ r.subscribed = true) →
    (listen op kind fs m log full).2.2 = false → full = false ∨
      ∃ f ∈ fs, ∃ a b, (listen op kind fs m log full).2.1 = a ++ .acquired op f kind :: b ∧ broker a f = false := by
  intro fs
  induction fs with
  | nil => intro m log full hs h; exact .inl h
  | cons f fs ih =>
    intro m log full hs h
    simp only [listen] at h ⊢
    have hh : Hush log (log ++ [.acquired op f kind]) := .one rfl
    have hs' : ∀ g, broker (log ++ [.acquired op f kind]) g = true →
        ∃ r, (m.set f (addListener ((m.get f).getD { kind := kind }) op)).get g = some r ∧ r.subscribed = true := by
      intro g hg
      rw [hh.broker] at hg
      obtain ⟨r, h1, h2⟩ := hs g hg
      rw [AMap.get_set]
      split
      · rename_i e
        subst e
        rw [h1]
        exact ⟨_, rfl, h2⟩
      · exact ⟨r, h1, h2⟩
    have hpre : log ++ [.acquired op f kind] <+:
        (listen op kind fs (m.set f (addListener ((m.get f).getD { kind := kind }) op)) (log ++ [.acquired op f kind])
          (full && ((m.get f).getD { kind := kind }).subscribed)).2.1 := listen_prefix _ _ _ _
    rcases ih _ _ _ hs' h with hx | ⟨g, hg, a, b, h1, h2⟩
    · cases full with
      | false => exact .inl rfl
      | true =>
        refine .inr ⟨f, by simp, log, ?_⟩
        obtain ⟨t, ht⟩ := hpre
        refine ⟨t, by rw [← ht]; simp, ?_⟩
        cases hb : broker log f with
        | false => rfl
        | true =>
          obtain ⟨r, h1, h2⟩ := hs f hb
          rw [h1] at hx
          simp [h2] at hx
    · exact .inr ⟨g, by simp [hg], a, b, h1, h2⟩

theorem acquire_late {cfg : Config} {m m' : Manager} {env : Env} {op : Nat} {fs : List Bytes} {k : Kind}
    (hm : MInv cfg m) (hc : m.closed = false) (h : m.acquire cfg env fs op k = .ok (.subscribing, m')) :
    ∃ f ∈ fs, ∃ a b k, m'.log = a ++ .acquired op f k :: b ∧ broker a f = false := by
  unfold Manager.acquire at h
  split at h
  · cases h
  · split at h
    · cases h
    · split at h
      · cases h
      · simp only at h
        split at h
        · cases h
        · split at h
          · split at h <;> cases h
          · split at h
            · cases h
            · rename_i hfull
              have hfull : (listen op k fs m.records m.log true).2.2 = false := by simpa using hfull
              rcases listen_late fs m.records m.log true (fun f hf => (hm.usable hc f).server hf) hfull with hx | ⟨f, hf, a, b, h1, h2⟩
              · cases hx
              · split at h
                · cases h
                · rename_i h3
                  have h := (Prod.mk.inj (Except.ok.inj h)).2
                  obtain ⟨new, e⟩ := activateAll_prefix h3
                  refine ⟨f, hf, a, b ++ new, k, ?_, h2⟩
                  rw [← h]
                  simp only
                  rw [← e, h1]
                  simp

theorem release_fed {m : Manager} {op : Nat} (hs : FAll m.records m.log) (fs : List Bytes) :
    FAll (m.release fs op).records (m.release fs op).log ∧ Hush m.log (m.release fs op).log := by
  induction fs generalizing m with
  | nil => exact ⟨hs, .refl⟩
  | cons f fs ih =>
    simp only [Manager.release]
    have h0 : Hush m.log (m.log ++ [.released op f]) := .one rfl
    have h1 : FAll (releaseOne m.records m.log f op).1 (releaseOne m.records m.log f op).2 ∧
        Hush m.log (releaseOne m.records m.log f op).2 := by
      unfold releaseOne
      split
      · exact ⟨hs.hush h0, h0⟩
      · rename_i r hg
        have key : ∀ log', Hush m.log log' → FAll (m.records.set f { r with listeners := r.listeners.filter (· != op) }) log' :=
          fun log' hh => FAll.set (fun e he _ => (hs e he).hush hh)
            (((hs.get hg).of (r' := { r with listeners := r.listeners.filter (· != op) }) (fun x => x) rfl
              (fun i hi => (List.mem_filter.1 hi).1)).hush hh)
        simp only
        split
        · have h2 := h0.trans (.one (e := .status ⟨.empty, f, 0⟩) rfl)
          exact ⟨key _ h2, h2⟩
        · exact ⟨key _ h0, h0⟩
    obtain ⟨a1, a2⟩ := ih (m := { m with records := (releaseOne m.records m.log f op).1
                                         log := (releaseOne m.records m.log f op).2 }) h1.1
    exact ⟨a1, h1.2.trans a2⟩

theorem release_hush {m : Manager} {op : Nat} (fs : List Bytes) : Hush m.log (m.release fs op).log := by
  induction fs generalizing m with
  | nil => exact .refl
  | cons f fs ih =>
    simp only [Manager.release]
    have h0 : Hush m.log (m.log ++ [.released op f]) := .one rfl
    have h1 : Hush m.log (releaseOne m.records m.log f op).2 := by
      unfold releaseOne
      split
      · exact h0
      · simp only
        split
        · exact h0.trans (.one (e := .status ⟨.empty, f, 0⟩) rfl)
        · exact h0
    exact h1.trans (ih (m := { m with records := (releaseOne m.records m.log f op).1
                                      log := (releaseOne m.records m.log f op).2 }))

theorem broker_finished (log : List Trace) (a : Action) (f g : Bytes) (ok : Bool) (h : g ≠ f) :
    broker (log ++ [.finished a f ok]) g = broker log g := by
  rw [broker_one]
  have h' : ¬ f = g := fun e => h e.symm
  cases a <;> simp [h']

theorem emit_success {f : Bytes} {r : Record} {log log' : List Trace} (h : emit f r .subscribeSuccess log = .ok log') :
    log' = log ++ r.listeners.map fun i => .status ⟨.subscribeSuccess, f, i⟩ := by
  unfold emit at h
  split at h
  · cases h; rfl
  · cases h

theorem broker_statuses (log : List Trace) (l : List Nat) (t : StatusType) (f g : Bytes) :
    broker (log ++ l.map fun i => .status ⟨t, f, i⟩) g = broker log g := by
  induction l generalizing log with
  | nil => simp
  | cons i l ih =>
    rw [List.map_cons, show ∀ (x : Trace) (y : List Trace), log ++ x :: y = (log ++ [x]) ++ y by simp, ih, broker_one]

theorem requestEvent_fed {f : Bytes} {r r' : Record} {a : Action} {ok : Bool} {log log' : List Trace}
    (hr : FRec f r log) (h : requestEvent f r a ok (log ++ [.finished a f ok]) = .ok (r', log')) :
    FRec f r' log' ∧ ∃ new, log' = log ++ new ∧ ∀ g, g ≠ f → broker log' g = broker log g := by
  unfold requestEvent at h
  split at h
  · split at h
    · simp only at h
      split at h
      · cases h
      · rename_i h1
        cases h
        cases ok
        · have hh := emit_hush (by simp) h1
          have hb : ∀ g, broker (log ++ [.finished .subscribe f false]) g = broker log g := by
            intro g; rw [broker_one]; simp
          refine ⟨FRec.hush (FRec.append (by simpa using hr.of (r' := { r with pending := .nothing }) (fun x => x) rfl (fun _ x => x)) (hb f)) hh, ?_⟩
          have hb' := hh.broker
          obtain ⟨new, e, _⟩ := hh
          refine ⟨_, e.trans (by rw [List.append_assoc]), fun g _ => by rw [hb', hb]⟩
        · have e := emit_success h1
          simp only at e
          subst e
          refine ⟨?_, _, by rw [List.append_assoc], ?_⟩
          · intro _
            refine ⟨?_, ?_⟩
            · rw [broker_statuses, broker_one]; simp
            · intro _ i hi
              refine .inl ?_
              have hi : i ∈ r.listeners := hi
              simp [hi]
          · intro g hg
            rw [broker_statuses, broker_finished _ _ _ _ _ hg]
    · cases h
  · split at h
    · simp only at h
      split at h
      · cases h
        refine ⟨(by intro hx; cases hx), _, by rw [List.append_assoc], ?_⟩
        intro g hg
        rw [(Hush.one (e := .status ⟨.unsubscribeComplete, f, 0⟩) rfl).broker, broker_finished _ _ _ _ _ hg]
      · rename_i hok
        cases h
        have hok : ok = false := by simpa using hok
        subst hok
        refine ⟨FRec.append (hr.of (fun x => x) rfl (fun _ x => x)) (by rw [broker_one]; simp), _, rfl, ?_⟩
        intro g hg
        rw [broker_finished _ _ _ _ _ hg]
    · cases h

theorem streamEvent_fed {connected : Bool} {env : Env} {f : Bytes} {r r' : Record} {a : Action} {ok retryable : Bool}
    {log log' : List Trace} (hr : FRec f r log) (hk : r.kind = .stream)
    (h : streamEvent connected env f r a ok retryable (log ++ [.finished a f ok]) = .ok (r', log')) :
    FRec f r' log' ∧ (∃ new, log' = log ++ new ∧ ∀ g, g ≠ f → broker log' g = broker log g) ∧ Mute log log' := by
  have hm : Mute log (log ++ [.finished a f ok]) := ⟨_, rfl, fun i => rfl⟩
  have hfail : ok = false → ∀ g, broker (log ++ [.finished a f ok]) g = broker log g := by
    rintro rfl g; rw [broker_one]; cases a <;> simp
  unfold streamEvent at h
  split at h
  · split at h
    · simp only at h
      split at h
      · rename_i hok
        split at h
        · cases h
        · rename_i h1
          cases h
          have hh := emit_hush (by simp) h1
          have hb := hh.broker
          refine ⟨?_, ?_, hm.trans hh.mute⟩
          · intro _
            refine ⟨?_, fun hx => by rw [show _ = Kind.stream from hk] at hx; cases hx⟩
            rw [hb, broker_one]
            simp [show ok = true from hok]
          · obtain ⟨new, e, _⟩ := hh
            refine ⟨_, e.trans (by rw [List.append_assoc]), fun g hg => ?_⟩
            rw [hb, broker_finished _ _ _ _ _ hg]
      · rename_i hok
        have hok : ok = false := by simpa using hok
        have hf := hfail hok
        have finish : ∀ r1 : Record, r1.kind = r.kind → r1.subscribed = r.subscribed → r1.listeners = r.listeners →
            Hush (log ++ [.finished .subscribe f ok]) log' →
            FRec f r1 log' ∧ (∃ new, log' = log ++ new ∧ ∀ g, g ≠ f → broker log' g = broker log g) ∧ Mute log log' := by
          intro r1 e1 e2 e3 hh
          have hb := hh.broker
          refine ⟨FRec.hush (FRec.append (hr.of (by rw [e2]; exact fun x => x) e1 (by rw [e3]; exact fun _ x => x)) (hf f)) hh, ?_, hm.trans hh.mute⟩
          obtain ⟨new, e, _⟩ := hh
          refine ⟨_, e.trans (by rw [List.append_assoc]), fun g hg => ?_⟩
          rw [hb, hf]
        split at h
        · split at h
          · cases h
          · rename_i h1
            cases h
            obtain ⟨a1, a2, a3, a4⟩ := activate_fed h1
            exact finish _ a2 a3 a1 a4
        · split at h
          · cases h
          · rename_i h1
            cases h
            exact finish _ rfl rfl rfl (emit_hush (by simp) h1)
    · cases h
  · split at h
    · simp only at h
      split at h
      · cases h
        have hh : Hush (log ++ [.finished .unsubscribe f ok]) (log ++ [.finished .unsubscribe f ok] ++ [.status ⟨.unsubscribeComplete, f, 0⟩]) := .one rfl
        refine ⟨(by intro hx; cases hx), ⟨_, by rw [List.append_assoc], ?_⟩, hm.trans hh.mute⟩
        intro g hg
        rw [hh.broker, broker_finished _ _ _ _ _ hg]
      · rename_i hok
        cases h
        have hok : ok = false := by simpa using hok
        refine ⟨FRec.append (hr.of (fun x => x) rfl (fun _ x => x)) (hfail hok f), ⟨_, rfl, ?_⟩, hm⟩
        intro g hg
        rw [broker_finished _ _ _ _ _ hg]
    · cases h

theorem onSubscription_fed {m m' : Manager} {env : Env} {f : Bytes} {a : Action} {ok retryable : Bool}
    (hs : FAll m.records m.log) (hn : m.records.get f ≠ none) (h : m.onSubscription env f a ok retryable = .ok m') :
    FAll m'.records m'.log := by
  unfold Manager.onSubscription at h
  simp only at h
  split at h
  · rename_i hg; exact absurd hg hn
  · rename_i r hg
    have hr := hs.get hg
    split at h
    · cases h
    · rename_i r' log' h1
      cases h
      have h2 : FRec f r' log' ∧ ∃ new, log' = m.log ++ new ∧ ∀ g, g ≠ f → broker log' g = broker m.log g := by
        cases hk : r.kind with
        | request => rw [hk] at h1; exact requestEvent_fed hr h1
        | stream => rw [hk] at h1; exact ⟨(streamEvent_fed hr hk h1).1, (streamEvent_fed hr hk h1).2.1⟩
      obtain ⟨h3, new, rfl, h4⟩ := h2
      exact FAll.set (fun e he hne => (hs e he).append (h4 _ hne)) h3

theorem rehash_fed {m m' : AMap Bytes Record} {log : List Trace} (h : FAll m log) (hr : Rehash m m') : FAll m' log := by
  obtain ⟨g, h1, h2⟩ := hr
  intro e he
  obtain ⟨x, hx, rfl⟩ := List.mem_map.1 (h2.mem_iff.1 he)
  exact (h x hx).of (fun x => x) rfl (fun i hi => (h1 _ _).mem_iff.1 hi)

theorem step_fed {cfg : Config} {m m' : Manager} {e : Event} (hm : MInv cfg m) (hs : FAll m.records m.log)
    (he : Enabled m e) (h : step cfg m e = .ok m') : FAll m'.records m'.log := by
  cases e with
  | acquire env fs op kind =>
    simp only [step] at h
    split at h
    · cases h
    · rename_i h1; cases h; exact (acquire_fed hs h1).1
  | release fs op => cases h; exact (release_fed hs fs).1
  | purge env => exact (purge_fed hs h).1
  | finished env f a ok retryable =>
    refine onSubscription_fed hs ?_ h
    intro hg
    have hp := hm.usable he.1 f
    rw [hg] at hp
    have h1 := hp.sub
    have h2 := hp.unsub
    have h3 := he.2
    cases a <;> simp_all
  | connection env up joined => exact (onConnection_fed hs h).1
  | cleanUp env =>
    simp only [step, Manager.cleanUp] at h
    split at h
    · cases h
    · rename_i h1
      cases h
      have := foreach_none h1
      subst this
      intro e he
      cases he

theorem reachable_fed {cfg : Config} {m : Manager} (h : Reachable cfg m) : FAll m.records m.log := by
  induction h with
  | new c => intro e he; cases he
  | step hr he hs ih => exact step_fed (reachable_minv hr) ih he hs
  | rehash hr hs ih => exact rehash_fed ih hs

end Mqtt.Rr
