import Verif.Lemmas.RrOnce

/-!
Only `acquire` makes an operation a listener, and it records each filter of its list.
-/
namespace Mqtt.Rr

/-- The log has grown, and nobody has become a listener. -/
def Keep (log log' : List Trace) : Prop := ∃ new, log' = log ++ new ∧ ∀ i f k, Trace.acquired i f k ∉ new

theorem Keep.refl {log : List Trace} : Keep log log := ⟨[], by simp, by simp⟩

theorem Keep.trans {a b c : List Trace} (h1 : Keep a b) (h2 : Keep b c) : Keep a c := by
  obtain ⟨n1, rfl, h1⟩ := h1
  obtain ⟨n2, rfl, h2⟩ := h2
  refine ⟨n1 ++ n2, by simp, fun i f k hx => ?_⟩
  rcases List.mem_append.1 hx with hx | hx
  · exact h1 i f k hx
  · exact h2 i f k hx

theorem Keep.one {log : List Trace} {e : Trace} (h : ∀ i f k, e ≠ .acquired i f k) : Keep log (log ++ [e]) :=
  ⟨[e], rfl, fun i f k hx => h i f k (List.mem_singleton.1 hx).symm⟩

theorem emit_keep {f : Bytes} {r : Record} {t : StatusType} {log log' : List Trace}
    (h : emit f r t log = .ok log') : Keep log log' := by
  unfold emit at h
  split at h
  · cases h
    refine ⟨_, rfl, fun i g k hx => ?_⟩
    obtain ⟨j, _, e⟩ := List.mem_map.1 hx
    cases e
  · cases h

theorem unsubscribe_keep (env : Env) (f : Bytes) (r : Record) (b : Bool) (log : List Trace) :
    Keep log (unsubscribe env f r b log).2 := by
  unfold unsubscribe
  split
  · split
    · exact .one (by simp)
    · exact .refl
  · exact .refl

theorem activate_keep {connected : Bool} {env : Env} {f : Bytes} {r r' : Record} {ok : Bool} {log log' : List Trace}
    (h : activate connected env f r log = .ok (ok, r', log')) : Keep log log' := by
  unfold activate at h
  split at h
  · cases h; exact .refl
  · split at h
    · split at h
      · cases h; exact .one (by simp)
      · split at h
        · split at h
          · cases h
          · rename_i h1
            cases h
            exact emit_keep h1
        · simp only at h
          split at h
          · cases h
          · rename_i h1
            cases h
            exact emit_keep h1
    · cases h; exact .refl

theorem foreach_keep {g : Bytes → Record → List Trace → Except Fault (Option Record × List Trace)}
    (hg : ∀ f r log o log', g f r log = .ok (o, log') → Keep log log') :
    ∀ {m : AMap Bytes Record} {log : List Trace} {m' : AMap Bytes Record} {log' : List Trace},
      foreach g m log = .ok (m', log') → Keep log log' := by
  intro m
  induction m with
  | nil => intro log m' log' h; cases h; exact .refl
  | cons e m ih =>
    intro log m' log' h
    obtain ⟨f, r⟩ := e
    simp only [foreach] at h
    split at h
    · cases h
    · rename_i o log1 h1
      split at h
      · cases h
      · rename_i m1 log2 h2
        cases h
        exact (hg f r log o log1 h1).trans (ih h2)

theorem purge_keep {m m' : Manager} {env : Env} (h : m.purge env = .ok m') : Keep m.log m'.log := by
  unfold Manager.purge at h
  split at h
  · cases h
  · rename_i h1
    cases h
    refine foreach_keep ?_ h1
    intro f r log o log' h
    unfold purgeOne at h
    split at h
    · have hu := unsubscribe_keep env f r false log
      cases hc : m.connected with
      | true =>
        simp only [hc, if_true] at h
        split at h <;> (cases h; exact hu)
      | false =>
        simp only [hc, Bool.false_eq_true, if_false] at h
        split at h <;> (cases h; exact .refl)
    · cases h; exact .refl

theorem activateOne_keep {connected : Bool} {env : Env} {f : Bytes} {r : Record} {log : List Trace}
    {o : Option Record} {log' : List Trace} (h : activateOne connected env f r log = .ok (o, log')) : Keep log log' := by
  unfold activateOne at h
  split at h
  · cases h
  · rename_i h1
    cases h
    exact activate_keep h1

theorem sessionLost_keep {m m' : Manager} {env : Env} (h : m.sessionLost env = .ok m') : Keep m.log m'.log := by
  unfold Manager.sessionLost at h
  split at h
  · cases h
  · rename_i h1
    split at h
    · cases h
    · rename_i h2
      cases h
      refine (Keep.one (e := .sessionLost) (by simp)).trans ((foreach_keep ?_ h1).trans (foreach_keep ?_ h2))
      · intro f r log o log' h
        unfold lostOne at h
        split at h
        · simp only at h
          split at h <;>
          · split at h
            · cases h
            · rename_i h1
              cases h
              exact emit_keep h1
        · cases h; exact .refl
      · intro f r log o log' h
        unfold resubscribeOne at h
        split at h
        · exact activateOne_keep h
        · cases h; exact .refl

theorem onConnection_keep {m m' : Manager} {env : Env} {up joined : Bool}
    (h : m.onConnection env up joined = .ok m') : Keep m.log m'.log := by
  unfold Manager.onConnection at h
  split at h
  · simp only at h
    split at h
    · cases h
    · rename_i m1 h1
      have hs1 : Keep m.log m1.log := by
        split at h1
        · cases h1; exact .refl
        · exact sessionLost_keep (m := { m with connected := true }) h1
      split at h
      · cases h
      · rename_i m2 h2
        split at h
        · cases h
        · rename_i h3
          cases h
          exact hs1.trans ((purge_keep h2).trans (foreach_keep (fun _ _ _ _ _ h => activateOne_keep h) h3))
  · cases h; exact .refl

theorem onSubscription_keep {m m' : Manager} {env : Env} {f : Bytes} {a : Action} {ok retryable : Bool}
    (h : m.onSubscription env f a ok retryable = .ok m') : Keep m.log m'.log := by
  have h0 : Keep m.log (m.log ++ [.finished a f ok]) := .one (by simp)
  unfold Manager.onSubscription at h
  simp only at h
  split at h
  · cases h; exact h0
  · rename_i r hg
    split at h
    · cases h
    · rename_i r' log' h1
      cases h
      refine h0.trans ?_
      simp only
      generalize m.log ++ [Trace.finished a f ok] = log at h1
      cases hk : r.kind with
      | request =>
        rw [hk] at h1
        simp only at h1
        unfold requestEvent at h1
        split at h1
        · split at h1
          · simp only at h1
            split at h1
            · cases h1
            · rename_i h2
              cases h1
              exact emit_keep h2
          · cases h1
        · split at h1
          · simp only at h1
            split at h1
            · cases h1; exact .one (by simp)
            · cases h1; exact .refl
          · cases h1
      | stream =>
        rw [hk] at h1
        simp only at h1
        unfold streamEvent at h1
        split at h1
        · split at h1
          · simp only at h1
            split at h1
            · split at h1
              · cases h1
              · rename_i h2
                cases h1
                exact emit_keep h2
            · split at h1
              · split at h1
                · cases h1
                · rename_i h2
                  cases h1
                  exact activate_keep h2
              · split at h1
                · cases h1
                · rename_i h2
                  cases h1
                  exact emit_keep h2
          · cases h1
        · split at h1
          · simp only at h1
            split at h1
            · cases h1; exact .one (by simp)
            · cases h1; exact .refl
          · cases h1

theorem release_keep {m : Manager} {op : Nat} (fs : List Bytes) : Keep m.log (m.release fs op).log := by
  induction fs generalizing m with
  | nil => exact .refl
  | cons f fs ih =>
    simp only [Manager.release]
    have h0 : Keep m.log (m.log ++ [.released op f]) := .one (by simp)
    have h1 : Keep m.log (releaseOne m.records m.log f op).2 := by
      unfold releaseOne
      split
      · exact h0
      · simp only
        split
        · exact h0.trans (.one (by simp))
        · exact h0
    exact h1.trans (ih (m := { m with records := (releaseOne m.records m.log f op).1
                                      log := (releaseOne m.records m.log f op).2 }))

theorem cleanUp_keep {m m' : Manager} {env : Env} (h : m.cleanUp env = .ok m') : Keep m.log m'.log := by
  unfold Manager.cleanUp at h
  split at h
  · cases h
  · rename_i h1
    cases h
    refine (Keep.one (e := .closed) (by simp)).trans (foreach_keep ?_ h1)
    intro f r log o log' h
    cases h
    exact unsubscribe_keep env f r true log

/-- What `listen` records. -/
theorem listen_log {op : Nat} {kind : Kind} : ∀ (fs : List Bytes) (m : AMap Bytes Record) (log : List Trace) (full : Bool),
    (listen op kind fs m log full).2.1 = log ++ fs.map fun f => .acquired op f kind := by
  intro fs
  induction fs with
  | nil => intro m log full; simp [listen]
  | cons f fs ih =>
    intro m log full
    simp only [listen]
    rw [ih]
    simp

/-- All filters are established: each was when it was acquired. -/
theorem listen_full {op : Nat} {kind : Kind} : ∀ (fs : List Bytes) (m : AMap Bytes Record) (log : List Trace) (full : Bool),
    (∀ f r, m.get f = some r → r.subscribed = true → broker log f = true) →
    (listen op kind fs m log full).2.2 = true → full = true ∧
      ∀ f ∈ fs, ∃ a b, (listen op kind fs m log full).2.1 = a ++ .acquired op f kind :: b ∧ broker a f = true := by
  intro fs
  induction fs with
  | nil => intro m log full hs h; exact ⟨h, by simp⟩
  | cons f fs ih =>
    intro m log full hs h
    simp only [listen] at h ⊢
    have hh : Hush log (log ++ [.acquired op f kind]) := .one rfl
    have hs' : ∀ g r, (m.set f (addListener ((m.get f).getD { kind := kind }) op)).get g = some r → r.subscribed = true →
        broker (log ++ [.acquired op f kind]) g = true := by
      intro g r hg hr
      rw [hh.broker]
      rw [AMap.get_set] at hg
      split at hg
      · rename_i e
        subst e
        cases hg
        cases hx : m.get g with
        | none => rw [hx] at hr; cases hr
        | some r0 => rw [hx] at hr; exact hs g r0 hx hr
      · exact hs g r hg hr
    obtain ⟨h1, h2⟩ := ih _ _ _ hs' h
    simp only [Bool.and_eq_true] at h1
    refine ⟨h1.1, ?_⟩
    intro g hg
    rcases List.mem_cons.1 hg with rfl | hg
    · obtain ⟨t, ht⟩ := listen_prefix (op := op) (kind := kind) fs (m.set g (addListener ((m.get g).getD { kind := kind }) op))
        (log ++ [.acquired op g kind]) (full && ((m.get g).getD { kind := kind }).subscribed)
      refine ⟨log, t, by rw [← ht]; simp, ?_⟩
      cases hx : m.get g with
      | none => rw [hx] at h1; cases h1.2
      | some r0 => rw [hx] at h1; exact hs g r0 hx h1.2
    · exact h2 g hg

theorem activateAll_keep {connected : Bool} {env : Env} : ∀ {fs : List Bytes} {m : AMap Bytes Record} {log : List Trace}
    {ok : Bool} {m' : AMap Bytes Record} {log' : List Trace},
    activateAll connected env fs m log = .ok (ok, m', log') → Keep log log' := by
  intro fs
  induction fs with
  | nil => intro m log ok m' log' h; cases h; exact .refl
  | cons f fs ih =>
    intro m log ok m' log' h
    simp only [activateAll] at h
    split at h
    · cases h
    · split at h
      · cases h
      · rename_i h1
        split at h
        · exact (activate_keep h1).trans (ih h)
        · cases h; exact activate_keep h1

/-- What `acquire` records; when it reports that everything is in place, it was. -/
theorem acquire_takes {cfg : Config} {m m' : Manager} {env : Env} {op : Nat} {fs : List Bytes} {k : Kind} {res : Acquired}
    (hf : FAll m.records m.log) (h : m.acquire cfg env fs op k = .ok (res, m')) :
    (m' = m ∧ res ≠ .subscribed ∧ res ≠ .subscribing) ∨
    res ≠ .blocked ∧ Keep (m.log ++ fs.map fun f => .acquired op f k) m'.log ∧
      (res = .subscribed → ∀ f ∈ fs, ∃ a b, m'.log = a ++ .acquired op f k :: b ∧ broker a f = true) := by
  unfold Manager.acquire at h
  split at h
  · cases h; exact .inl ⟨rfl, by simp, by simp⟩
  · split at h
    · cases h; exact .inl ⟨rfl, by simp, by simp⟩
    · split at h
      · cases h; exact .inl ⟨rfl, by simp, by simp⟩
      · simp only at h
        split at h
        · cases h; exact .inl ⟨rfl, by simp, by simp⟩
        · split at h
          · split at h <;> (cases h; exact .inl ⟨rfl, by simp, by simp⟩)
          · right
            split at h
            · rename_i hfull
              cases h
              refine ⟨by simp, by simp only; rw [listen_log]; exact .refl, fun _ => ?_⟩
              exact (listen_full fs m.records m.log true (fun f r hg hs => ((hf.get hg) hs).1) hfull).2
            · split at h
              · cases h
              · rename_i ok _ _ h3
                simp only [Except.ok.injEq, Prod.mk.injEq] at h
                obtain ⟨rfl, rfl⟩ := h
                rw [listen_log] at h3
                refine ⟨by split <;> simp, activateAll_keep h3, fun e => ?_⟩
                split at e <;> cases e

end Mqtt.Rr
