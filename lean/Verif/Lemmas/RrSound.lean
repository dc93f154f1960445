import Verif.Lemmas.RrManagerInv

/-!
Who listens and who is told: any property of listeners that holds when they are acquired holds for every listener and for
the receiver of every status event. The log only grows.
-/
namespace Mqtt.Rr

/-- Listeners have a property. -/
def Sound (P : Kind → Nat → Prop) (m : AMap Bytes Record) : Prop := ∀ e ∈ m, ∀ i ∈ e.2.listeners, P e.2.kind i

/-- The receiver of a status event has the property. -/
def Told (P : Kind → Nat → Prop) (s : Status) : Prop :=
  s.type = .empty ∨ s.type = .unsubscribeComplete ∨ ∃ k, matchesType k s.type = true ∧ P k s.op

/-- The log has grown by such events. -/
def Ext (P : Kind → Nat → Prop) (log log' : List Trace) : Prop :=
  ∃ new, log' = log ++ new ∧ ∀ s, Trace.status s ∈ new → Told P s

variable {P : Kind → Nat → Prop}

theorem Ext.refl {log : List Trace} : Ext P log log := ⟨[], by simp, by simp⟩

theorem Ext.trans {a b c : List Trace} (h1 : Ext P a b) (h2 : Ext P b c) : Ext P a c := by
  obtain ⟨n1, rfl, h1⟩ := h1
  obtain ⟨n2, rfl, h2⟩ := h2
  refine ⟨n1 ++ n2, by simp, ?_⟩
  intro s hs
  rcases List.mem_append.1 hs with hs | hs
  · exact h1 s hs
  · exact h2 s hs

theorem Ext.one {log : List Trace} {e : Trace} (h : ∀ s, e = .status s → Told P s) : Ext P log (log ++ [e]) :=
  ⟨[e], rfl, by intro s hs; exact h s (List.mem_singleton.1 hs).symm⟩

theorem unsubscribe_sound (env : Env) (f : Bytes) (r : Record) (b : Bool) (log : List Trace) :
    (unsubscribe env f r b log).1.listeners = r.listeners ∧ (unsubscribe env f r b log).1.kind = r.kind ∧
      Ext P log (unsubscribe env f r b log).2 := by
  unfold unsubscribe
  split
  · split
    · exact ⟨rfl, rfl, .one (by intro s e; cases e)⟩
    · exact ⟨rfl, rfl, .refl⟩
  · exact ⟨rfl, rfl, .refl⟩

theorem emit_sound {f : Bytes} {r : Record} {t : StatusType} {log log' : List Trace} (hr : ∀ i ∈ r.listeners, P r.kind i)
    (h : emit f r t log = .ok log') : Ext P log log' := by
  unfold emit at h
  split at h
  · rename_i hm
    cases h
    refine ⟨_, rfl, ?_⟩
    intro s hs
    obtain ⟨i, hi, e⟩ := List.mem_map.1 hs
    cases e
    exact .inr (.inr ⟨r.kind, hm, hr i hi⟩)
  · cases h

theorem activate_sound {connected : Bool} {env : Env} {f : Bytes} {r r' : Record} {ok : Bool} {log log' : List Trace}
    (hr : ∀ i ∈ r.listeners, P r.kind i) (h : activate connected env f r log = .ok (ok, r', log')) :
    r'.listeners = r.listeners ∧ r'.kind = r.kind ∧ Ext P log log' := by
  unfold activate at h
  split at h
  · cases h; exact ⟨rfl, rfl, .refl⟩
  · split at h
    · split at h
      · cases h; exact ⟨rfl, rfl, .one (by intro s e; cases e)⟩
      · split at h
        · split at h
          · cases h
          · rename_i h1
            cases h
            exact ⟨rfl, rfl, emit_sound hr h1⟩
        · simp only at h
          split at h
          · cases h
          · rename_i h1
            cases h
            exact ⟨rfl, rfl, emit_sound (r := { r with poisoned := true }) hr h1⟩
    · cases h; exact ⟨rfl, rfl, .refl⟩

theorem foreach_sound {g : Bytes → Record → List Trace → Except Fault (Option Record × List Trace)}
    (hg : ∀ f r log o log', (∀ i ∈ r.listeners, P r.kind i) → g f r log = .ok (o, log') →
      (∀ r', o = some r' → r'.listeners = r.listeners ∧ r'.kind = r.kind) ∧ Ext P log log') :
    ∀ {m : AMap Bytes Record} {log : List Trace} {m' : AMap Bytes Record} {log' : List Trace},
      Sound P m → foreach g m log = .ok (m', log') → Sound P m' ∧ Ext P log log' := by
  intro m
  induction m with
  | nil => intro log m' log' hs h; cases h; exact ⟨hs, .refl⟩
  | cons e m ih =>
    intro log m' log' hs h
    obtain ⟨f, r⟩ := e
    simp only [foreach] at h
    split at h
    · cases h
    · rename_i o log1 h1
      split at h
      · cases h
      · rename_i m1 log2 h2
        cases h
        obtain ⟨a1, a2⟩ := hg f r log o log1 (hs (f, r) (by simp)) h1
        obtain ⟨b1, b2⟩ := ih (fun e he => hs e (by simp [he])) h2
        refine ⟨?_, a2.trans b2⟩
        cases o with
        | none => exact b1
        | some r' =>
          intro e he i hi
          rcases List.mem_cons.1 he with rfl | he
          · obtain ⟨c1, c2⟩ := a1 r' rfl
            simp only at hi ⊢
            rw [c1] at hi
            rw [c2]
            exact hs (f, r) (by simp) i hi
          · exact b1 e he i hi

theorem purgeOne_sound {connected : Bool} {env : Env} {f : Bytes} {r : Record} {log : List Trace} {o : Option Record}
    {log' : List Trace} (h : purgeOne connected env f r log = .ok (o, log')) :
    (∀ r', o = some r' → r'.listeners = r.listeners ∧ r'.kind = r.kind) ∧ Ext P log log' := by
  unfold purgeOne at h
  split at h
  · have hu := unsubscribe_sound (P := P) env f r false log
    cases connected with
    | true =>
      simp only [if_true] at h
      split at h
      · cases h; exact ⟨(by intro r' e; cases e), hu.2.2⟩
      · cases h; exact ⟨by intro r' e; cases e; exact ⟨hu.1, hu.2.1⟩, hu.2.2⟩
    | false =>
      simp only [Bool.false_eq_true, if_false] at h
      split at h
      · cases h; exact ⟨(by intro r' e; cases e), .refl⟩
      · cases h; exact ⟨by intro r' e; cases e; exact ⟨rfl, rfl⟩, .refl⟩
  · cases h; exact ⟨by intro r' e; cases e; exact ⟨rfl, rfl⟩, .refl⟩

theorem purge_sound {m m' : Manager} {env : Env} (hs : Sound P m.records) (h : m.purge env = .ok m') :
    Sound P m'.records ∧ Ext P m.log m'.log := by
  unfold Manager.purge at h
  split at h
  · cases h
  · rename_i h1
    cases h
    exact foreach_sound (fun f r log o log' _ h => purgeOne_sound h) hs h1

theorem lostOne_sound {f : Bytes} {r : Record} {log : List Trace} {o : Option Record} {log' : List Trace}
    (hr : ∀ i ∈ r.listeners, P r.kind i) (h : lostOne f r log = .ok (o, log')) :
    (∀ r', o = some r' → r'.listeners = r.listeners ∧ r'.kind = r.kind) ∧ Ext P log log' := by
  unfold lostOne at h
  split at h
  · simp only at h
    split at h
    · rename_i hk
      split at h
      · cases h
      · rename_i h1
        cases h
        refine ⟨?_, emit_sound (r := { r with subscribed := false }) hr h1⟩
        intro r' e
        split at e
        · cases e
        · cases e; exact ⟨rfl, rfl⟩
    · rename_i hk
      split at h
      · cases h
      · rename_i h1
        cases h
        refine ⟨?_, emit_sound (r := { r with subscribed := false }) hr h1⟩
        intro r' e
        cases e; exact ⟨rfl, rfl⟩
  · cases h; exact ⟨by intro r' e; cases e; exact ⟨rfl, rfl⟩, .refl⟩

theorem resubscribeOne_sound {connected : Bool} {env : Env} {f : Bytes} {r : Record} {log : List Trace}
    {o : Option Record} {log' : List Trace} (hr : ∀ i ∈ r.listeners, P r.kind i)
    (h : resubscribeOne connected env f r log = .ok (o, log')) :
    (∀ r', o = some r' → r'.listeners = r.listeners ∧ r'.kind = r.kind) ∧ Ext P log log' := by
  unfold resubscribeOne at h
  split at h
  · split at h
    · cases h
    · rename_i h1
      cases h
      obtain ⟨a1, a2, a3⟩ := activate_sound hr h1
      exact ⟨by intro r' e; cases e; exact ⟨a1, a2⟩, a3⟩
  · cases h; exact ⟨by intro r' e; cases e; exact ⟨rfl, rfl⟩, .refl⟩

theorem activateOne_sound {connected : Bool} {env : Env} {f : Bytes} {r : Record} {log : List Trace}
    {o : Option Record} {log' : List Trace} (hr : ∀ i ∈ r.listeners, P r.kind i)
    (h : activateOne connected env f r log = .ok (o, log')) :
    (∀ r', o = some r' → r'.listeners = r.listeners ∧ r'.kind = r.kind) ∧ Ext P log log' := by
  unfold activateOne at h
  split at h
  · cases h
  · rename_i h1
    cases h
    obtain ⟨a1, a2, a3⟩ := activate_sound hr h1
    exact ⟨by intro r' e; cases e; exact ⟨a1, a2⟩, a3⟩

theorem sessionLost_sound {m m' : Manager} {env : Env} (hs : Sound P m.records) (h : m.sessionLost env = .ok m') :
    Sound P m'.records ∧ Ext P m.log m'.log := by
  unfold Manager.sessionLost at h
  split at h
  · cases h
  · rename_i h1
    split at h
    · cases h
    · rename_i h2
      cases h
      obtain ⟨a1, a2⟩ := foreach_sound (fun f r log o log' hr h => lostOne_sound hr h) hs h1
      obtain ⟨b1, b2⟩ := foreach_sound (fun f r log o log' hr h => resubscribeOne_sound hr h) a1 h2
      exact ⟨b1, (Ext.one (by intro s e; cases e)).trans (a2.trans b2)⟩

theorem onConnection_sound {m m' : Manager} {env : Env} {up joined : Bool} (hs : Sound P m.records)
    (h : m.onConnection env up joined = .ok m') : Sound P m'.records ∧ Ext P m.log m'.log := by
  unfold Manager.onConnection at h
  split at h
  · simp only at h
    split at h
    · cases h
    · rename_i m1 h1
      have hs1 : Sound P m1.records ∧ Ext P m.log m1.log := by
        split at h1
        · cases h1; exact ⟨hs, .refl⟩
        · exact sessionLost_sound (m := { m with connected := true }) hs h1
      split at h
      · cases h
      · rename_i m2 h2
        have hs2 := purge_sound hs1.1 h2
        split at h
        · cases h
        · rename_i h3
          cases h
          obtain ⟨c1, c2⟩ := foreach_sound (fun f r log o log' hr h => activateOne_sound hr h) hs2.1 h3
          exact ⟨c1, hs1.2.trans (hs2.2.trans c2)⟩
  · cases h; exact ⟨hs, .refl⟩

theorem sound_get {m : AMap Bytes Record} (hs : Sound P m) {f : Bytes} {r : Record} (h : m.get f = some r) :
    ∀ i ∈ r.listeners, P r.kind i := hs (f, r) (AMap.get_some_mem h)

theorem sound_set {m : AMap Bytes Record} (hs : Sound P m) {f : Bytes} {r : Record} (hr : ∀ i ∈ r.listeners, P r.kind i) :
    Sound P (m.set f r) := by
  intro e he
  rcases List.mem_cons.1 he with rfl | he
  · exact hr
  · exact hs e (List.mem_filter.1 he).1

theorem requestEvent_sound {f : Bytes} {r r' : Record} {a : Action} {ok : Bool} {log log' : List Trace}
    (hr : ∀ i ∈ r.listeners, P r.kind i) (h : requestEvent f r a ok log = .ok (r', log')) :
    r'.listeners = r.listeners ∧ r'.kind = r.kind ∧ Ext P log log' := by
  unfold requestEvent at h
  split at h
  · split at h
    · simp only at h
      split at h
      · cases h
      · rename_i h1
        cases h
        cases ok
        · exact ⟨rfl, rfl, emit_sound (r := { r with pending := .nothing }) hr h1⟩
        · exact ⟨rfl, rfl, emit_sound (r := { r with pending := .nothing, subscribed := true }) hr h1⟩
    · cases h
  · split at h
    · simp only at h
      split at h
      · cases h; exact ⟨rfl, rfl, .one (by intro s e; cases e; exact .inr (.inl rfl))⟩
      · cases h; exact ⟨rfl, rfl, .refl⟩
    · cases h

theorem streamEvent_sound {connected : Bool} {env : Env} {f : Bytes} {r r' : Record} {a : Action} {ok retryable : Bool}
    {log log' : List Trace} (hr : ∀ i ∈ r.listeners, P r.kind i)
    (h : streamEvent connected env f r a ok retryable log = .ok (r', log')) :
    r'.listeners = r.listeners ∧ r'.kind = r.kind ∧ Ext P log log' := by
  unfold streamEvent at h
  split at h
  · split at h
    · simp only at h
      split at h
      · split at h
        · cases h
        · rename_i h1
          cases h
          exact ⟨rfl, rfl, emit_sound (r := { r with pending := .nothing, subscribed := true }) hr h1⟩
      · split at h
        · split at h
          · cases h
          · rename_i h1
            cases h
            exact activate_sound (r := { r with pending := .nothing }) hr h1
        · split at h
          · cases h
          · rename_i h1
            cases h
            exact ⟨rfl, rfl, emit_sound (r := { r with pending := .nothing, poisoned := true }) hr h1⟩
    · cases h
  · split at h
    · simp only at h
      split at h
      · cases h; exact ⟨rfl, rfl, .one (by intro s e; cases e; exact .inr (.inl rfl))⟩
      · cases h; exact ⟨rfl, rfl, .refl⟩
    · cases h

theorem onSubscription_sound {m m' : Manager} {env : Env} {f : Bytes} {a : Action} {ok retryable : Bool}
    (hs : Sound P m.records) (h : m.onSubscription env f a ok retryable = .ok m') :
    Sound P m'.records ∧ Ext P m.log m'.log := by
  have h0 : Ext P m.log (m.log ++ [.finished a f ok]) := .one (by intro s e; cases e)
  unfold Manager.onSubscription at h
  simp only at h
  split at h
  · cases h; exact ⟨hs, h0⟩
  · rename_i r hg
    have hr := sound_get hs hg
    split at h
    · cases h
    · rename_i r' log' h1
      cases h
      have h2 : r'.listeners = r.listeners ∧ r'.kind = r.kind ∧ Ext P (m.log ++ [.finished a f ok]) log' := by
        cases hk : r.kind with
        | request => rw [hk] at h1; exact hk ▸ requestEvent_sound hr h1
        | stream => rw [hk] at h1; exact hk ▸ streamEvent_sound hr h1
      exact ⟨sound_set hs (by rw [h2.1, h2.2.1]; exact hr), h0.trans h2.2.2⟩

theorem release_sound {m : Manager} {op : Nat} (hs : Sound P m.records) (fs : List Bytes) :
    Sound P (m.release fs op).records ∧ Ext P m.log (m.release fs op).log := by
  induction fs generalizing m with
  | nil => exact ⟨hs, .refl⟩
  | cons f fs ih =>
    simp only [Manager.release]
    have h0 : Ext P m.log (m.log ++ [.released op f]) := .one (by intro s e; cases e)
    have h1 : Sound P (releaseOne m.records m.log f op).1 ∧ Ext P m.log (releaseOne m.records m.log f op).2 := by
      unfold releaseOne
      split
      · exact ⟨hs, h0⟩
      · rename_i r hg
        refine ⟨sound_set hs ?_, ?_⟩
        · intro i hi
          exact sound_get hs hg i (List.mem_filter.1 hi).1
        · simp only
          split
          · exact h0.trans (.one (by intro s e; cases e; exact .inl rfl))
          · exact h0
    obtain ⟨a1, a2⟩ := ih (m := { m with records := (releaseOne m.records m.log f op).1
                                         log := (releaseOne m.records m.log f op).2 }) h1.1
    exact ⟨a1, h1.2.trans a2⟩

theorem listen_sound {op : Nat} {kind : Kind} (hop : P kind op) : ∀ (fs : List Bytes) (m : AMap Bytes Record)
    (log : List Trace) (full : Bool), Sound P m → (∀ f ∈ fs, ∀ r, m.get f = some r → r.kind = kind) →
    Sound P (listen op kind fs m log full).1 ∧ Ext P log (listen op kind fs m log full).2.1 := by
  intro fs
  induction fs with
  | nil => intro m log full hs _; exact ⟨hs, .refl⟩
  | cons f fs ih =>
    intro m log full hs hk
    simp only [listen]
    have hkd : (addListener ((m.get f).getD { kind := kind }) op).kind = kind := by
      cases hg : m.get f with
      | none => rfl
      | some r => exact hk f (by simp) r hg
    have h1 : Sound P (m.set f (addListener ((m.get f).getD { kind := kind }) op)) := by
      apply sound_set hs
      intro i hi
      rw [hkd]
      cases hg : m.get f with
      | none =>
        rw [hg] at hi
        simp [addListener] at hi
        rw [hi]; exact hop
      | some r =>
        rw [hg] at hi
        simp only [addListener, Option.getD_some] at hi
        have hrk := hk f (by simp) r hg
        split at hi
        · exact hrk ▸ sound_get hs hg i hi
        · rcases List.mem_append.1 hi with hi | hi
          · exact hrk ▸ sound_get hs hg i hi
          · simp at hi; rw [hi]; exact hop
    obtain ⟨a1, a2⟩ := ih (m.set f (addListener ((m.get f).getD { kind := kind }) op)) (log ++ [.acquired op f kind])
      (full && ((m.get f).getD { kind := kind }).subscribed) h1 (by
        intro g hg r hr
        rw [AMap.get_set] at hr
        split at hr
        · cases hr; exact hkd
        · exact hk g (by simp [hg]) r hr)
    exact ⟨a1, (Ext.one (by intro s e; cases e)).trans a2⟩

theorem activateAll_sound {connected : Bool} {env : Env} : ∀ {fs : List Bytes} {m : AMap Bytes Record} {log : List Trace}
    {ok : Bool} {m' : AMap Bytes Record} {log' : List Trace}, Sound P m →
    activateAll connected env fs m log = .ok (ok, m', log') → Sound P m' ∧ Ext P log log' := by
  intro fs
  induction fs with
  | nil => intro m log ok m' log' hs h; cases h; exact ⟨hs, .refl⟩
  | cons f fs ih =>
    intro m log ok m' log' hs h
    simp only [activateAll] at h
    split at h
    · cases h
    · rename_i r hg
      split at h
      · cases h
      · rename_i ok1 r1 log1 h1
        obtain ⟨a1, a2, a3⟩ := activate_sound (sound_get hs hg) h1
        have h2 : Sound P (m.set f r1) := sound_set hs (by rw [a1, a2]; exact sound_get hs hg)
        split at h
        · obtain ⟨b1, b2⟩ := ih h2 h
          exact ⟨b1, a3.trans b2⟩
        · cases h; exact ⟨h2, a3⟩

theorem acquire_sound {cfg : Config} {m m' : Manager} {env : Env} {fs : List Bytes} {op : Nat} {kind : Kind}
    {res : Acquired} (hs : Sound P m.records) (hop : P kind op) (h : m.acquire cfg env fs op kind = .ok (res, m')) :
    Sound P m'.records ∧ Ext P m.log m'.log := by
  unfold Manager.acquire at h
  split at h
  · cases h; exact ⟨hs, .refl⟩
  · split at h
    · cases h; exact ⟨hs, .refl⟩
    · rename_i hp
      have hk : ∀ f ∈ fs, ∀ r, m.records.get f = some r → r.kind = kind := by
        intro f hf r hr
        by_cases hx : r.kind = kind
        · exact hx
        · exact absurd (List.any_eq_true.2 ⟨f, hf, by rw [hr]; simp [hx]⟩) hp
      split at h
      · cases h; exact ⟨hs, .refl⟩
      · simp only at h
        split at h
        · cases h; exact ⟨hs, .refl⟩
        · split at h
          · split at h <;> (cases h; exact ⟨hs, .refl⟩)
          · obtain ⟨a1, a2⟩ := listen_sound hop fs m.records m.log true hs hk
            split at h
            · cases h; exact ⟨a1, a2⟩
            · split at h
              · cases h
              · rename_i h1
                cases h
                obtain ⟨b1, b2⟩ := activateAll_sound a1 h1
                exact ⟨b1, a2.trans b2⟩

/-- A blocked acquisition changes nothing. -/
theorem acquire_blocked {cfg : Config} {m m' : Manager} {env : Env} {fs : List Bytes} {op : Nat} {kind : Kind}
    (h : m.acquire cfg env fs op kind = .ok (.blocked, m')) : m' = m := by
  unfold Manager.acquire at h
  split at h
  · cases h
  · split at h
    · cases h
    · split at h
      · cases h; rfl
      · simp only at h
        split at h
        · cases h; rfl
        · split at h
          · split at h
            · cases h; rfl
            · cases h
          · split at h
            · cases h
            · split at h
              · cases h
              · have h' := (Prod.mk.inj (Except.ok.inj h)).1
                split at h' <;> cases h'

theorem rehash_sound {m m' : AMap Bytes Record} (hs : Sound P m) (h : Rehash m m') : Sound P m' := by
  obtain ⟨g, hg, hp⟩ := h
  intro e he i hi
  obtain ⟨e0, he0, e1⟩ := List.mem_map.1 (hp.mem_iff.1 he)
  subst e1
  exact hs e0 he0 i ((hg e0.1 e0.2).mem_iff.1 hi)

theorem cleanUp_statuses {m m' : Manager} {env : Env} (h : m.cleanUp env = .ok m') :
    ∃ new, m'.log = m.log ++ new ∧ ∀ s, Trace.status s ∉ new := by
  have key : ∀ (r : AMap Bytes Record) (log : List Trace) (r' : AMap Bytes Record) (log' : List Trace),
      foreach (fun f r log => .ok (none, (unsubscribe env f r true log).2)) r log = .ok (r', log') →
      Ext (fun _ _ => False) log log' ∧ ∃ new, log' = log ++ new ∧ ∀ s, Trace.status s ∉ new := by
    intro r
    induction r with
    | nil => intro log r' log' h; cases h; exact ⟨.refl, [], by simp, by simp⟩
    | cons e r ih =>
      intro log r' log' h
      simp only [foreach] at h
      split at h
      · cases h
      · rename_i h1
        cases h
        obtain ⟨a, n, hn, hs⟩ := ih _ _ _ h1
        have hu : ∃ n0, (unsubscribe env e.1 e.2 true log).2 = log ++ n0 ∧ ∀ s, Trace.status s ∉ n0 := by
          unfold unsubscribe
          split
          · split
            · exact ⟨[_], rfl, by simp⟩
            · exact ⟨[], by simp, by simp⟩
          · exact ⟨[], by simp, by simp⟩
        obtain ⟨n0, h0, hs0⟩ := hu
        refine ⟨(unsubscribe_sound env e.1 e.2 true log).2.2.trans a, n0 ++ n, ?_, ?_⟩
        · rw [hn, h0]; simp
        · intro s hm
          rcases List.mem_append.1 hm with hm | hm
          · exact hs0 s hm
          · exact hs s hm
  unfold Manager.cleanUp at h
  split at h
  · cases h
  · rename_i h1
    cases h
    obtain ⟨_, n, hn, hs⟩ := key _ _ _ _ h1
    exact ⟨.closed :: n, by rw [hn]; simp, by intro s hm; rcases List.mem_cons.1 hm with e | hm; cases e; exact hs s hm⟩

end Mqtt.Rr
