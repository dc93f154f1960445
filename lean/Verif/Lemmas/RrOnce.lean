import Verif.Lemmas.RrFed

/-!
A request is told of the success of a subscription at most once for each time it has acquired the filter, after it has
acquired it and when the server has the subscription.
-/
namespace Mqtt.Rr

/-- How often an operation was told that a subscription was successful. -/
def tells (log : List Trace) (f : Bytes) (i : Nat) : Nat := log.count (.status ⟨.subscribeSuccess, f, i⟩)

/-- An operation becomes a listener of a filter. -/
def isAcquired (f : Bytes) (i : Nat) : Trace → Bool
  | .acquired j g _ => j == i && g == f
  | _ => false

/-- How often an operation became a listener of a filter. -/
def takes (log : List Trace) (f : Bytes) (i : Nat) : Nat := log.countP (isAcquired f i)

theorem tells_append (a b : List Trace) (f : Bytes) (i : Nat) : tells (a ++ b) f i = tells a f i + tells b f i :=
  List.count_append

theorem takes_append (a b : List Trace) (f : Bytes) (i : Nat) : takes (a ++ b) f i = takes a f i + takes b f i :=
  List.countP_append

theorem Hush.tells {log log' : List Trace} (h : Hush log log') (f : Bytes) (i : Nat) :
    tells log' f i = tells log f i := by
  obtain ⟨new, rfl, hn⟩ := h
  rw [tells_append]
  have : Rr.tells new f i = 0 := by
    unfold Rr.tells
    rw [List.count_eq_zero]
    intro hx
    have := hn _ hx
    simp [Trace.quiet] at this
  omega

theorem takes_mono {log log' : List Trace} (h : log <+: log') (f : Bytes) (i : Nat) : takes log f i ≤ takes log' f i := by
  obtain ⟨new, rfl⟩ := h
  rw [takes_append]
  omega

theorem Hush.prefix {log log' : List Trace} (h : Hush log log') : log <+: log' := by
  obtain ⟨new, rfl, _⟩ := h
  exact List.prefix_append _ _

/-- Whoever was told had acquired the filter, and the server had the subscription. -/
def Truthful (log : List Trace) : Prop := ∀ a b f i, log = a ++ .status ⟨.subscribeSuccess, f, i⟩ :: b →
  broker a f = true ∧ 0 < takes a f i

theorem Truthful.append {log new : List Trace} (h : Truthful log)
    (hn : ∀ a b f i, new = a ++ .status ⟨.subscribeSuccess, f, i⟩ :: b → broker (log ++ a) f = true ∧ 0 < takes (log ++ a) f i) :
    Truthful (log ++ new) := by
  intro a b f i e
  rcases List.append_eq_append_iff.1 e with ⟨x, e1, e2⟩ | ⟨x, e1, e2⟩
  · rw [e1]
    exact hn x b f i e2
  · cases x with
    | nil =>
      have := hn [] b f i (by simpa using e2.symm)
      rw [List.append_nil] at e1 this
      rw [← e1]
      exact this
    | cons y ys =>
      injection e2 with e2 e3
      subst e2
      exact h a ys f i e1

theorem Truthful.quiet {log new : List Trace} (h : Truthful log) (hn : ∀ f i, Trace.status ⟨.subscribeSuccess, f, i⟩ ∉ new) :
    Truthful (log ++ new) := h.append fun a b f i e => absurd (by rw [e]; simp) (hn f i)

/-- No operation was told more often than it acquired, and what it was told is right. -/
def Once (log : List Trace) : Prop := (∀ f i, tells log f i ≤ takes log f i) ∧ Truthful log

theorem Once.hush {log log' : List Trace} (h : Once log) (hh : Hush log log') : Once log' := by
  refine ⟨?_, by
    obtain ⟨new, rfl, hn⟩ := hh
    exact h.2.quiet fun f i hx => by simpa [Trace.quiet] using hn _ hx⟩
  intro f i
  have := h.1 f i
  have := takes_mono hh.prefix f i
  rw [hh.tells]
  omega

/-- A record against the log: those who wait for the subscription are still to be told. -/
def ORec (f : Bytes) (r : Record) (log : List Trace) : Prop :=
  r.listeners.Nodup ∧ (r.kind = .request → r.subscribed = false → ∀ i ∈ r.listeners, tells log f i < takes log f i)

/-- All records against the log. -/
def OAll (m : AMap Bytes Record) (log : List Trace) : Prop := ∀ e ∈ m, ORec e.1 e.2 log

theorem ORec.grow {f : Bytes} {r : Record} {log log' : List Trace} (h : ORec f r log) (hp : log <+: log')
    (ht : ∀ i ∈ r.listeners, tells log' f i = tells log f i) : ORec f r log' := by
  refine ⟨h.1, fun hk hs i hi => ?_⟩
  have h1 := h.2 hk hs i hi
  have h2 := takes_mono hp f i
  rw [ht i hi]
  omega

theorem ORec.hush {f : Bytes} {r : Record} {log log' : List Trace} (h : ORec f r log) (hh : Hush log log') :
    ORec f r log' := h.grow hh.prefix (fun i _ => hh.tells f i)

theorem OAll.hush {m : AMap Bytes Record} {log log' : List Trace} (h : OAll m log) (hh : Hush log log') :
    OAll m log' := fun e he => (h e he).hush hh

theorem ORec.of {f : Bytes} {r r' : Record} {log : List Trace} (h : ORec f r log) (hk : r'.kind = r.kind)
    (hs : r'.kind = .request → r'.subscribed = false → r.subscribed = false ∨ r'.listeners = [])
    (hl : r'.listeners.Sublist r.listeners) : ORec f r' log := by
  refine ⟨h.1.sublist hl, fun hx hy i hi => ?_⟩
  rcases hs hx hy with h1 | h1
  · exact h.2 (hk ▸ hx) h1 i (hl.subset hi)
  · rw [h1] at hi; cases hi

theorem OAll.get {m : AMap Bytes Record} {log : List Trace} (h : OAll m log) {f : Bytes} {r : Record}
    (hg : m.get f = some r) : ORec f r log := h (f, r) (AMap.get_some_mem hg)

theorem OAll.set {m : AMap Bytes Record} {log : List Trace} {f : Bytes} {r : Record}
    (h : ∀ e ∈ m, e.1 ≠ f → ORec e.1 e.2 log) (hr : ORec f r log) : OAll (m.set f r) log := by
  intro e he
  rcases List.mem_cons.1 he with rfl | he
  · exact hr
  · obtain ⟨h1, h2⟩ := List.mem_filter.1 he
    exact h e h1 (by simpa using h2)

/-- Iterations append only quiet entries. `Pre` is what is known of the records before. -/
theorem foreach_once {Pre : Bytes → Record → List Trace → Prop}
    (hpre : ∀ f r log log', Pre f r log → Hush log log' → Pre f r log')
    {g : Bytes → Record → List Trace → Except Fault (Option Record × List Trace)}
    (hg : ∀ f r log o log', Pre f r log → g f r log = .ok (o, log') → (∀ r', o = some r' → ORec f r' log') ∧ Hush log log') :
    ∀ {m : AMap Bytes Record} {log : List Trace} {m' : AMap Bytes Record} {log' : List Trace},
      (∀ e ∈ m, Pre e.1 e.2 log) → foreach g m log = .ok (m', log') → OAll m' log' ∧ Hush log log' := by
  intro m
  induction m with
  | nil => intro log m' log' hs h; cases h; exact ⟨(by intro e he; cases he), .refl⟩
  | cons e m ih =>
    intro log m' log' hs h
    obtain ⟨f, r⟩ := e
    simp only [foreach] at h
    split at h
    · cases h
    · rename_i o log1 h1
      split at h
      · cases h
      · rename_i m1 log2 h2
        cases h
        obtain ⟨a1, a2⟩ := hg f r log o log1 (hs (f, r) (by simp)) h1
        obtain ⟨b1, b2⟩ := ih (fun e he => hpre _ _ _ _ (hs e (by simp [he])) a2) h2
        refine ⟨?_, a2.trans b2⟩
        cases o with
        | none => exact b1
        | some r' =>
          intro e he
          rcases List.mem_cons.1 he with rfl | he
          · exact (a1 r' rfl).hush b2
          · exact b1 e he

theorem purgeOne_once {connected : Bool} {env : Env} {f : Bytes} {r : Record} {log : List Trace} {o : Option Record}
    {log' : List Trace} (hr : ORec f r log) (h : purgeOne connected env f r log = .ok (o, log')) :
    (∀ r', o = some r' → ORec f r' log') ∧ Hush log log' := by
  unfold purgeOne at h
  split at h
  · obtain ⟨u1, u2, u3, u4⟩ := unsubscribe_fed env f r false log
    have hu : ORec f (unsubscribe env f r false log).1 (unsubscribe env f r false log).2 :=
      (hr.of u2 (fun _ hx => .inl (u3 ▸ hx)) (by rw [u1]; exact List.Sublist.refl _)).hush u4
    cases connected with
    | true =>
      simp only [if_true] at h
      split at h
      · cases h; exact ⟨(by intro r' e; cases e), u4⟩
      · cases h; exact ⟨(by intro r' e; cases e; exact hu), u4⟩
    | false =>
      simp only [Bool.false_eq_true, if_false] at h
      split at h
      · cases h; exact ⟨(by intro r' e; cases e), .refl⟩
      · cases h; exact ⟨(by intro r' e; cases e; exact hr), .refl⟩
  · cases h; exact ⟨(by intro r' e; cases e; exact hr), .refl⟩

theorem purge_once {m m' : Manager} {env : Env} (hs : OAll m.records m.log) (h : m.purge env = .ok m') :
    OAll m'.records m'.log ∧ Hush m.log m'.log := by
  unfold Manager.purge at h
  split at h
  · cases h
  · rename_i h1
    cases h
    exact foreach_once (Pre := ORec) (fun _ _ _ _ h hh => h.hush hh) (fun f r log o log' hr h => purgeOne_once hr h) hs h1

theorem lostOne_once {f : Bytes} {r : Record} {log : List Trace} {o : Option Record} {log' : List Trace}
    (hr : ORec f r log) (hu : r.pending = .unsubscribing → r.listeners = []) (h : lostOne f r log = .ok (o, log')) :
    (∀ r', o = some r' → ORec f r' log') ∧ Hush log log' := by
  unfold lostOne at h
  split at h
  · simp only at h
    split at h
    · split at h
      · cases h
      · rename_i h1
        cases h
        refine ⟨?_, emit_hush (by simp) h1⟩
        intro r' e
        split at e
        · cases e
        · rename_i hp
          cases e
          refine (hr.of (r' := { r with subscribed := false }) rfl (fun _ _ => .inr (hu ?_)) (List.Sublist.refl _)).hush (emit_hush (by simp) h1)
          simpa using hp
    · rename_i hk
      split at h
      · cases h
      · rename_i h1
        cases h
        refine ⟨?_, emit_hush (by simp) h1⟩
        intro r' e
        cases e
        refine (hr.of (r' := { r with subscribed := false }) rfl (fun hx _ => ?_) (List.Sublist.refl _)).hush (emit_hush (by simp) h1)
        rw [show r.kind = .request from hx] at hk
        cases hk
  · cases h
    exact ⟨(by intro r' e; cases e; exact hr), .refl⟩

theorem activateOne_once {connected : Bool} {env : Env} {f : Bytes} {r : Record} {log : List Trace}
    {o : Option Record} {log' : List Trace} (hr : ORec f r log)
    (h : activateOne connected env f r log = .ok (o, log')) : (∀ r', o = some r' → ORec f r' log') ∧ Hush log log' := by
  unfold activateOne at h
  split at h
  · cases h
  · rename_i h1
    cases h
    obtain ⟨a1, a2, a3, a4⟩ := activate_fed h1
    refine ⟨?_, a4⟩
    intro r' e
    cases e
    exact (hr.of a2 (fun _ hx => .inl (a3 ▸ hx)) (by rw [a1]; exact List.Sublist.refl _)).hush a4

theorem resubscribeOne_once {connected : Bool} {env : Env} {f : Bytes} {r : Record} {log : List Trace}
    {o : Option Record} {log' : List Trace} (hr : ORec f r log)
    (h : resubscribeOne connected env f r log = .ok (o, log')) : (∀ r', o = some r' → ORec f r' log') ∧ Hush log log' := by
  unfold resubscribeOne at h
  split at h
  · exact activateOne_once hr h
  · cases h; exact ⟨(by intro r' e; cases e; exact hr), .refl⟩

/-- Entries that tell nobody of a success. -/
theorem once_other {log : List Trace} {e : Trace} (hs : ∀ s, e ≠ .status s) (f : Bytes) (i : Nat) :
    tells (log ++ [e]) f i = tells log f i := by
  rw [tells_append]
  have : tells [e] f i = 0 := by
    unfold tells
    rw [List.count_eq_zero]
    intro hx
    exact hs _ (List.mem_singleton.1 hx).symm
  omega

theorem Once.other {log : List Trace} {e : Trace} (h : Once log) (hs : ∀ s, e ≠ .status s) : Once (log ++ [e]) := by
  refine ⟨?_, h.2.quiet fun f i hx => hs _ (List.mem_singleton.1 hx).symm⟩
  intro f i
  have h1 := h.1 f i
  have h2 := takes_mono (List.prefix_append log [e]) f i
  rw [once_other hs]
  omega

theorem OAll.other {m : AMap Bytes Record} {log : List Trace} {e : Trace} (h : OAll m log) (hs : ∀ s, e ≠ .status s) :
    OAll m (log ++ [e]) := fun x hx => (h x hx).grow (List.prefix_append _ _) (fun i _ => once_other hs _ i)

theorem sessionLost_once {m m' : Manager} {env : Env} (hs : OAll m.records m.log) (ho : Once m.log)
    (hu : ∀ e ∈ m.records, e.2.pending = .unsubscribing → e.2.listeners = []) (h : m.sessionLost env = .ok m') :
    OAll m'.records m'.log ∧ Once m'.log := by
  unfold Manager.sessionLost at h
  split at h
  · cases h
  · rename_i h1
    split at h
    · cases h
    · rename_i h2
      cases h
      obtain ⟨a1, a2⟩ := foreach_once
        (Pre := fun f r log => ORec f r log ∧ (r.pending = .unsubscribing → r.listeners = []))
        (fun _ _ _ _ h hh => ⟨h.1.hush hh, h.2⟩) (fun f r log o log' hr h => lostOne_once hr.1 hr.2 h)
        (fun e he => ⟨hs.other (by simp) e he, hu e he⟩) h1
      obtain ⟨b1, b2⟩ := foreach_once (Pre := ORec) (fun _ _ _ _ h hh => h.hush hh)
        (fun f r log o log' hr h => resubscribeOne_once hr h) a1 h2
      exact ⟨b1, ((ho.other (by simp)).hush a2).hush b2⟩

theorem onConnection_once {m m' : Manager} {env : Env} {up joined : Bool} (hs : OAll m.records m.log) (ho : Once m.log)
    (hu : ∀ e ∈ m.records, e.2.pending = .unsubscribing → e.2.listeners = [])
    (h : m.onConnection env up joined = .ok m') : OAll m'.records m'.log ∧ Once m'.log := by
  unfold Manager.onConnection at h
  split at h
  · simp only at h
    split at h
    · cases h
    · rename_i m1 h1
      have hs1 : OAll m1.records m1.log ∧ Once m1.log := by
        split at h1
        · cases h1; exact ⟨hs, ho⟩
        · exact sessionLost_once (m := { m with connected := true }) hs ho hu h1
      split at h
      · cases h
      · rename_i m2 h2
        have hs2 := purge_once hs1.1 h2
        split at h
        · cases h
        · rename_i h3
          cases h
          obtain ⟨c1, c2⟩ := foreach_once (Pre := ORec) (fun _ _ _ _ h hh => h.hush hh)
            (fun f r log o log' hr h => activateOne_once hr h) hs2.1 h3
          exact ⟨c1, (hs1.2.hush hs2.2).hush c2⟩
  · cases h; exact ⟨hs, ho⟩

theorem listen_once {op : Nat} {kind : Kind} : ∀ (fs : List Bytes) (m : AMap Bytes Record) (log : List Trace) (full : Bool),
    OAll m log → Once log → OAll (listen op kind fs m log full).1 (listen op kind fs m log full).2.1 := by
  intro fs
  induction fs with
  | nil => intro m log full hs _; exact hs
  | cons f fs ih =>
    intro m log full hs ho
    simp only [listen]
    have hh : Hush log (log ++ [.acquired op f kind]) := .one rfl
    refine ih _ _ _ (OAll.set (fun e he _ => (hs e he).hush hh) ?_) (ho.hush hh)
    have hnew : tells (log ++ [.acquired op f kind]) f op < takes (log ++ [.acquired op f kind]) f op := by
      have := ho.1 f op
      rw [hh.tells, takes_append]
      have : takes [Trace.acquired op f kind] f op = 1 := by simp [takes, isAcquired]
      omega
    have hr : ORec f ((m.get f).getD { kind := kind }) (log ++ [.acquired op f kind]) := by
      cases hg : m.get f with
      | none => exact ⟨List.nodup_nil, fun _ _ i hi => (by cases hi)⟩
      | some r => exact (hs.get hg).hush hh
    generalize (m.get f).getD { kind := kind } = r at hr
    refine ⟨?_, fun hk hx i hi => ?_⟩
    · simp only [addListener]
      split
      · exact hr.1
      · rename_i hn
        exact List.nodup_append.2 ⟨hr.1, by simp, by
          intro a ha b hb e
          rw [List.mem_singleton.1 hb] at e
          exact hn (e ▸ ha)⟩
    · have : i ∈ r.listeners ∨ i = op := by
        simp only [addListener] at hi
        split at hi
        · exact .inl hi
        · simpa using hi
      rcases this with hi | rfl
      · exact hr.2 hk hx i hi
      · exact hnew

theorem activateAll_once {connected : Bool} {env : Env} : ∀ {fs : List Bytes} {m : AMap Bytes Record} {log : List Trace}
    {ok : Bool} {m' : AMap Bytes Record} {log' : List Trace}, OAll m log →
    activateAll connected env fs m log = .ok (ok, m', log') → OAll m' log' ∧ Hush log log' := by
  intro fs
  induction fs with
  | nil => intro m log ok m' log' hs h; cases h; exact ⟨hs, .refl⟩
  | cons f fs ih =>
    intro m log ok m' log' hs h
    simp only [activateAll] at h
    split at h
    · cases h
    · rename_i r hg
      split at h
      · cases h
      · rename_i ok1 r1 log1 h1
        obtain ⟨a1, a2, a3, a4⟩ := activate_fed h1
        have h2 : OAll (m.set f r1) log1 := OAll.set (fun e he _ => (hs e he).hush a4)
          (((hs.get hg).of a2 (fun _ hx => .inl (a3 ▸ hx)) (by rw [a1]; exact List.Sublist.refl _)).hush a4)
        split at h
        · obtain ⟨b1, b2⟩ := ih h2 h
          exact ⟨b1, a4.trans b2⟩
        · cases h; exact ⟨h2, a4⟩

theorem acquire_once {cfg : Config} {m m' : Manager} {env : Env} {fs : List Bytes} {op : Nat} {kind : Kind}
    {res : Acquired} (hs : OAll m.records m.log) (ho : Once m.log) (h : m.acquire cfg env fs op kind = .ok (res, m')) :
    OAll m'.records m'.log := by
  unfold Manager.acquire at h
  split at h
  · cases h; exact hs
  · split at h
    · cases h; exact hs
    · split at h
      · cases h; exact hs
      · simp only at h
        split at h
        · cases h; exact hs
        · split at h
          · split at h <;> (cases h; exact hs)
          · have l1 := listen_once (op := op) (kind := kind) fs m.records m.log true hs ho
            split at h
            · cases h; exact l1
            · split at h
              · cases h
              · rename_i h1
                cases h
                exact (activateAll_once l1 h1).1

theorem release_once {m : Manager} {op : Nat} (hs : OAll m.records m.log) (fs : List Bytes) :
    OAll (m.release fs op).records (m.release fs op).log := by
  induction fs generalizing m with
  | nil => exact hs
  | cons f fs ih =>
    simp only [Manager.release]
    have h0 : Hush m.log (m.log ++ [.released op f]) := .one rfl
    refine ih (m := { m with records := (releaseOne m.records m.log f op).1
                             log := (releaseOne m.records m.log f op).2 }) ?_
    simp only
    unfold releaseOne
    split
    · exact hs.hush h0
    · rename_i r hg
      have key : ∀ log', Hush m.log log' → OAll (m.records.set f { r with listeners := r.listeners.filter (· != op) }) log' :=
        fun log' hh => OAll.set (fun e he _ => (hs e he).hush hh)
          (((hs.get hg).of (r' := { r with listeners := r.listeners.filter (· != op) }) rfl (fun _ hx => .inl hx)
            List.filter_sublist).hush hh)
      simp only
      split
      · exact key _ (h0.trans (.one (e := .status ⟨.empty, f, 0⟩) rfl))
      · exact key _ h0

theorem tells_map (l : List Nat) (f g : Bytes) (i : Nat) :
    tells (l.map fun j => .status ⟨.subscribeSuccess, f, j⟩) g i = if g = f then l.count i else 0 := by
  induction l with
  | nil => simp [tells]
  | cons j l ih =>
    unfold tells at *
    rw [List.map_cons, List.count_cons, ih]
    by_cases hg : g = f
    · subst hg
      simp [List.count_cons]
    · have : ¬ f = g := fun e => hg e.symm
      simp [hg, this]

theorem requestEvent_once {f : Bytes} {r r' : Record} {a : Action} {ok : Bool} {log log' : List Trace}
    (hr : ORec f r log) (ho : Once log) (hi : r.pending = .subscribing → r.subscribed = false)
    (hu : r.pending = .unsubscribing → r.listeners = []) (hk : r.kind = .request)
    (h : requestEvent f r a ok (log ++ [.finished a f ok]) = .ok (r', log')) :
    ORec f r' log' ∧ Once log' ∧ log <+: log' ∧ ∀ g, g ≠ f → ∀ i, tells log' g i = tells log g i := by
  have hr1 : ORec f r (log ++ [.finished a f ok]) := hr.grow (List.prefix_append _ _) (fun i _ => once_other (by simp) _ i)
  have ho1 : Once (log ++ [.finished a f ok]) := ho.other (by simp)
  have hp1 : log <+: log ++ [.finished a f ok] := List.prefix_append _ _
  have ht1 : ∀ g i, tells (log ++ [.finished a f ok]) g i = tells log g i := fun g i => once_other (by simp) _ i
  have hb1 : a = .subscribe → ok = true → broker (log ++ [.finished a f ok]) f = true := by
    rintro rfl rfl
    rw [broker_one]
    simp
  generalize log ++ [Trace.finished a f ok] = log1 at *
  unfold requestEvent at h
  split at h
  · split at h
    · rename_i hpend
      have hsub := hi (by simpa using hpend)
      simp only at h
      split at h
      · cases h
      · rename_i h1
        cases h
        cases ok
        · have hh := emit_hush (by simp) h1
          simp only [Bool.false_eq_true, if_false] at hh ⊢
          refine ⟨ORec.hush (hr1.of rfl (fun _ hx => .inl hx) (List.Sublist.refl _)) hh, ho1.hush hh, hp1.trans hh.prefix, ?_⟩
          intro g _ i
          rw [hh.tells, ht1]
        · have e := emit_success h1
          simp only [if_true] at e ⊢
          subst e
          refine ⟨⟨hr.1, fun _ hx => (by cases hx)⟩, ⟨?_, ?_⟩, hp1.trans (List.prefix_append _ _), ?_⟩
          · intro g i
            have hm := takes_mono (List.prefix_append log1 (r.listeners.map fun i => .status ⟨.subscribeSuccess, f, i⟩)) g i
            have h0 := ho1.1 g i
            rw [tells_append, tells_map]
            split
            · rename_i e
              subst e
              by_cases hmem : i ∈ r.listeners
              · have h2 := hr1.2 hk hsub i hmem
                have h3 := List.nodup_iff_count.1 hr.1 i
                omega
              · have h3 := List.count_eq_zero.2 hmem
                omega
            · omega
          · refine ho1.2.append ?_
            intro x y g i e
            have hx : ∀ t ∈ x, ∃ j, t = .status ⟨.subscribeSuccess, f, j⟩ := by
              intro t ht
              have : t ∈ r.listeners.map fun i => Trace.status ⟨.subscribeSuccess, f, i⟩ := by rw [e]; simp [ht]
              obtain ⟨j, _, rfl⟩ := List.mem_map.1 this
              exact ⟨j, rfl⟩
            have hm : Trace.status ⟨.subscribeSuccess, g, i⟩ ∈ r.listeners.map fun i => Trace.status ⟨.subscribeSuccess, f, i⟩ := by
              rw [e]; simp
            obtain ⟨j, hj, e2⟩ := List.mem_map.1 hm
            injection e2 with e2
            injection e2 with _ e3 e4
            subst e3 e4
            refine ⟨?_, Nat.lt_of_lt_of_le ?_ (takes_mono (List.prefix_append log1 x) f j)⟩
            · rw [← hb1 rfl rfl]
              refine append_induct (fun t => ∃ j, t = .status ⟨.subscribeSuccess, f, j⟩) (fun l => Rr.broker l f) ?_ hx log1
              rintro log t ⟨j, rfl⟩
              rw [broker_one]
            · have := hr1.2 hk hsub j hj
              omega
          · intro g hg i
            rw [tells_append, tells_map, if_neg hg, ht1]
            rfl
    · cases h
  · split at h
    · rename_i hpend
      have hl := hu (by simpa using hpend)
      simp only at h
      split at h
      · cases h
        have hh : Hush log1 (log1 ++ [.status ⟨.unsubscribeComplete, f, 0⟩]) := .one rfl
        refine ⟨(hr1.of (r' := { r with pending := .nothing, subscribed := false }) rfl (fun _ _ => .inr hl) (List.Sublist.refl _)).hush hh, ho1.hush hh, hp1.trans hh.prefix, ?_⟩
        intro g _ i
        rw [hh.tells, ht1]
      · cases h
        exact ⟨hr1.of rfl (fun _ hx => .inl hx) (List.Sublist.refl _), ho1, hp1, fun g _ i => ht1 g i⟩
    · cases h

theorem streamEvent_once {connected : Bool} {env : Env} {f : Bytes} {r r' : Record} {a : Action} {ok retryable : Bool}
    {log log' : List Trace} (hr : ORec f r log) (ho : Once log) (hk : r.kind = .stream)
    (h : streamEvent connected env f r a ok retryable (log ++ [.finished a f ok]) = .ok (r', log')) :
    ORec f r' log' ∧ Once log' ∧ log <+: log' ∧ ∀ g, g ≠ f → ∀ i, tells log' g i = tells log g i := by
  have ho1 : Once (log ++ [.finished a f ok]) := ho.other (by simp)
  have hp1 : log <+: log ++ [.finished a f ok] := List.prefix_append _ _
  have ht1 : ∀ g i, tells (log ++ [.finished a f ok]) g i = tells log g i := fun g i => once_other (by simp) _ i
  have fin : ∀ r1 : Record, r1.kind = r.kind → r1.listeners = r.listeners → Hush (log ++ [.finished a f ok]) log' →
      ORec f r1 log' ∧ Once log' ∧ log <+: log' ∧ ∀ g, g ≠ f → ∀ i, tells log' g i = tells log g i := by
    intro r1 e1 e2 hh
    refine ⟨⟨by rw [e2]; exact hr.1, fun hx => ?_⟩, ho1.hush hh, hp1.trans hh.prefix, ?_⟩
    · rw [e1, hk] at hx; cases hx
    · intro g _ i
      rw [hh.tells, ht1]
  unfold streamEvent at h
  split at h
  · split at h
    · simp only at h
      split at h
      · split at h
        · cases h
        · rename_i h1
          cases h
          exact fin _ rfl rfl (emit_hush (by simp) h1)
      · split at h
        · split at h
          · cases h
          · rename_i h1
            cases h
            obtain ⟨a1, a2, a3, a4⟩ := activate_fed h1
            exact fin _ a2 a1 a4
        · split at h
          · cases h
          · rename_i h1
            cases h
            exact fin _ rfl rfl (emit_hush (by simp) h1)
    · cases h
  · split at h
    · simp only at h
      split at h
      · cases h
        exact fin _ rfl rfl (.one rfl)
      · cases h
        exact fin _ rfl rfl .refl
    · cases h

theorem onSubscription_once {m m' : Manager} {env : Env} {f : Bytes} {a : Action} {ok retryable : Bool}
    (hs : OAll m.records m.log) (ho : Once m.log)
    (hi : ∀ r, m.records.get f = some r → r.pending = .subscribing → r.subscribed = false)
    (hu : ∀ r, m.records.get f = some r → r.pending = .unsubscribing → r.listeners = [])
    (h : m.onSubscription env f a ok retryable = .ok m') : OAll m'.records m'.log ∧ Once m'.log := by
  unfold Manager.onSubscription at h
  simp only at h
  split at h
  · cases h
    exact ⟨hs.other (by simp), ho.other (by simp)⟩
  · rename_i r hg
    have hr := hs.get hg
    split at h
    · cases h
    · rename_i r' log' h1
      cases h
      have h2 : ORec f r' log' ∧ Once log' ∧ m.log <+: log' ∧ ∀ g, g ≠ f → ∀ i, tells log' g i = tells m.log g i := by
        cases hk : r.kind with
        | request => rw [hk] at h1; exact requestEvent_once hr ho (hi r hg) (hu r hg) hk h1
        | stream => rw [hk] at h1; exact streamEvent_once hr ho hk h1
      obtain ⟨h3, h4, h5, h6⟩ := h2
      exact ⟨OAll.set (fun e he hne => (hs e he).grow h5 (fun i _ => h6 _ hne i)) h3, h4⟩

theorem rehash_once {m m' : AMap Bytes Record} {log : List Trace} (h : OAll m log) (hr : Rehash m m') : OAll m' log := by
  obtain ⟨g, h1, h2⟩ := hr
  intro e he
  obtain ⟨x, hx, rfl⟩ := List.mem_map.1 (h2.mem_iff.1 he)
  have := h x hx
  exact ⟨(h1 _ _).nodup_iff.2 this.1, fun hk hs i hi => this.2 hk hs i ((h1 _ _).mem_iff.1 hi)⟩

theorem step_once {cfg : Config} {m m' : Manager} {e : Event} (hm : MInv cfg m) (hf : FAll m.records m.log)
    (hs : OAll m.records m.log) (ho : Once m.log) (he : Enabled m e) (h : step cfg m e = .ok m') : OAll m'.records m'.log ∧ Once m'.log := by
  have hu : m.closed = false → ∀ e ∈ m.records, e.2.pending = .unsubscribing → e.2.listeners = [] := by
    intro hc e he
    exact (hm.usable hc e.1).unused e.2 ((AMap.mem_iff_get hm.nodup).1 he)
  cases e with
  | acquire env fs op kind =>
    simp only [step] at h
    split at h
    · cases h
    · rename_i h1
      cases h
      exact ⟨acquire_once hs ho h1, ho.hush (acquire_fed hf h1).2⟩
  | release fs op => cases h; exact ⟨release_once hs fs, ho.hush (release_hush fs)⟩
  | purge env => exact ⟨(purge_once hs h).1, ho.hush (purge_once hs h).2⟩
  | finished env f a ok retryable =>
    exact onSubscription_once hs ho (fun r hg => (hm.usable he.1 f).idle r hg) (fun r hg => (hm.usable he.1 f).unused r hg) h
  | connection env up joined => exact onConnection_once hs ho (hu he) h
  | cleanUp env =>
    simp only [step, Manager.cleanUp] at h
    split at h
    · cases h
    · rename_i h1
      cases h
      have := foreach_once (Pre := fun _ _ _ => True) (fun _ _ _ _ _ _ => trivial)
        (fun f r log o log' _ h => by
          cases h
          exact ⟨(by intro r' e; cases e), (unsubscribe_fed env f r true log).2.2.2⟩) (fun _ _ => trivial) h1
      exact ⟨this.1, (ho.other (by simp)).hush this.2⟩

theorem reachable_once {cfg : Config} {m : Manager} (h : Reachable cfg m) : OAll m.records m.log ∧ Once m.log := by
  induction h with
  | new c => exact ⟨(by intro e he; cases he), (fun f i => Nat.le_refl _), (by intro a b f i e; cases a <;> cases e)⟩
  | step hr he hs ih => exact step_once (reachable_minv hr) (reachable_fed hr) ih.1 ih.2 he hs
  | rehash hr hs ih => exact ⟨rehash_once ih.1 hs, ih.2⟩

end Mqtt.Rr
