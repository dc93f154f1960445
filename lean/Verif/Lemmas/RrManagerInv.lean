import Verif.Lemmas.RrManager

/-! The invariant of the whole subscription manager. -/
namespace Mqtt.Rr

/-- Entries about other filters do not matter. -/
def Framed (Q : Bytes → Option Record → List Trace → Prop) : Prop :=
  ∀ f h o log log', Q f o log → About h log log' → f ≠ h → Q f o log'

/-- What a callback of an iteration achieves. -/
def Keeps (Q : Bytes → Option Record → List Trace → Prop)
    (g : Bytes → Record → List Trace → Except Fault (Option Record × List Trace)) : Prop :=
  ∀ f r log, Q f (some r) log → ∃ o log', g f r log = .ok (o, log') ∧ Q f o log' ∧ About f log log' ∧
    ∀ r', o = some r' → r'.kind = r.kind

theorem count_cons (f : Bytes) (r : Record) (m : AMap Bytes Record) (k : Kind) :
    count ((f, r) :: m) k = count m k + if r.kind = k then 1 else 0 := by
  unfold count
  rw [List.countP_cons]
  simp

theorem foreach_some {Q : Bytes → Option Record → List Trace → Prop}
    {g : Bytes → Record → List Trace → Except Fault (Option Record × List Trace)} (hf : Framed Q) (hg : Keeps Q g) :
    ∀ (m : AMap Bytes Record) (log : List Trace), m.Nodup → (∀ f r, m.get f = some r → Q f (some r) log) →
      ∃ m' log', foreach g m log = .ok (m', log') ∧ m'.Nodup ∧ (∀ f, m.get f ≠ none → Q f (m'.get f) log') ∧
        (∀ f o, m.get f = none → Q f o log → Q f o log') ∧ (∀ f, m.get f = none → m'.get f = none) ∧
        ∀ k, count m' k ≤ count m k := by
  intro m
  induction m with
  | nil =>
    intro log _ _
    exact ⟨[], log, rfl, AMap.nodup_nil, by simp, by intros; assumption, by simp, by simp⟩
  | cons e m ih =>
    obtain ⟨f, r⟩ := e
    intro log hn hq
    have hn' : AMap.Nodup m := (List.nodup_cons.1 hn).2
    have hfm : AMap.get m f = none := by
      cases hx : AMap.get m f with
      | none => rfl
      | some v =>
        exact absurd (AMap.get_ne_none_iff.1 (by rw [hx]; simp)) (List.nodup_cons.1 hn).1
    obtain ⟨o, log1, h1, h2, h3, h4⟩ := hg f r log (hq f r (by simp [AMap.get_cons]))
    obtain ⟨m', log', i1, i2, i3, i4, i5, i6⟩ := ih log1 hn' (by
      intro f' r' hr
      have hne : f' ≠ f := by intro e; rw [e, hfm] at hr; cases hr
      exact hf _ _ _ _ _ (hq f' r' (by rw [AMap.get_cons, if_neg (fun e => hne e.symm)]; exact hr)) h3 hne)
    have hfm' : m'.get f = none := i5 f hfm
    have hother : ∀ f' o', (AMap.get ((f, r) :: m) f') = none → Q f' o' log → Q f' o' log' := by
      intro f' o' hx hy
      rw [AMap.get_cons] at hx
      split at hx
      · cases hx
      · rename_i hne
        exact i4 f' o' hx (hf _ _ _ _ _ hy h3 (fun e => hne e.symm))
    simp only [foreach, h1, i1]
    cases o with
    | none =>
      refine ⟨_, _, rfl, i2, ?_, hother, ?_, ?_⟩
      · intro f' hx
        by_cases he : f' = f
        · subst he; rw [hfm']; exact i4 _ _ hfm h2
        · rw [AMap.get_cons, if_neg (fun e => he e.symm)] at hx
          exact i3 f' hx
      · intro f' hx
        rw [AMap.get_cons] at hx
        split at hx
        · cases hx
        · exact i5 f' hx
      · intro k
        rw [count_cons]
        exact Nat.le_add_right_of_le (i6 k)
    | some r' =>
      refine ⟨_, _, rfl, ?_, ?_, hother, ?_, ?_⟩
      · refine List.nodup_cons.2 ⟨?_, i2⟩
        intro hm
        exact AMap.get_ne_none_iff.2 hm hfm'
      · intro f' hx
        by_cases he : f' = f
        · subst he; rw [AMap.get_cons, if_pos rfl]; exact i4 _ _ hfm h2
        · rw [AMap.get_cons, if_neg (fun e => he e.symm)] at hx
          rw [AMap.get_cons, if_neg (fun e => he e.symm)]
          exact i3 f' hx
      · intro f' hx
        rw [AMap.get_cons] at hx
        split at hx
        · cases hx
        · rename_i hne
          rw [AMap.get_cons, if_neg hne]
          exact i5 f' hx
      · intro k
        rw [count_cons, count_cons, h4 r' rfl]
        exact Nat.add_le_add_right (i6 k) _

theorem foreach_ok {Q : Bytes → Option Record → List Trace → Prop}
    {g : Bytes → Record → List Trace → Except Fault (Option Record × List Trace)} (hf : Framed Q) (hg : Keeps Q g)
    {m : AMap Bytes Record} {log : List Trace} (hn : m.Nodup) (hq : ∀ f, Q f (m.get f) log) :
    ∃ m' log', foreach g m log = .ok (m', log') ∧ m'.Nodup ∧ (∀ f, Q f (m'.get f) log') ∧
      ∀ k, count m' k ≤ count m k := by
  obtain ⟨m', log', h1, h2, h3, h4, h5, h6⟩ := foreach_some hf hg m log hn (fun f r hr => hr ▸ hq f)
  refine ⟨m', log', h1, h2, ?_, h6⟩
  intro f
  by_cases hx : m.get f = none
  · rw [h5 f hx]
    exact h4 f _ hx (hx ▸ hq f)
  · exact h3 f hx

theorem About.pinv {f g : Bytes} {o : Option Record} {log log' : List Trace} (ha : About g log log')
    (h : PInv f o log) (hne : f ≠ g) : PInv f o log' := by
  obtain ⟨new, rfl, hn⟩ := ha
  exact h.still fun e he => about_still (hn e he) hne

theorem About.broker {f g : Bytes} {log log' : List Trace} (ha : About g log log') (hne : f ≠ g) :
    broker log' f = broker log f := by
  obtain ⟨new, rfl, hn⟩ := ha
  exact broker_still (fun e he => about_still (hn e he) hne) _

theorem About.outstanding {f g : Bytes} {log log' : List Trace} (ha : About g log log') (hne : f ≠ g) (a : Action) :
    outstanding log' a f = outstanding log a f := by
  obtain ⟨new, rfl, hn⟩ := ha
  exact outstanding_still (fun e he => about_still (hn e he) hne) _ _

theorem framed_pinv : Framed PInv := fun _ _ _ _ _ h ha hne => ha.pinv h hne

theorem keeps_of_good {g : Bytes → Record → List Trace → Except Fault (Option Record × List Trace)}
    (h : ∀ f r log, PInv f (some r) log → ∃ o log', g f r log = .ok (o, log') ∧ Good f r log o log') :
    Keeps PInv g := by
  intro f r log hp
  obtain ⟨o, log', h1, h2⟩ := h f r log hp
  exact ⟨o, log', h1, h2.inv, h2.about, h2.kind⟩

/-- At most one call of each kind is not completed. -/
structure Bounded (f : Bytes) (log : List Trace) : Prop where
  sub_nonneg : 0 ≤ outstanding log .subscribe f
  sub_le : outstanding log .subscribe f ≤ 1
  unsub_nonneg : 0 ≤ outstanding log .unsubscribe f
  unsub_le : outstanding log .unsubscribe f ≤ 1

theorem PInv.bounded {f : Bytes} {o : Option Record} {log : List Trace} (h : PInv f o log) : Bounded f log := by
  have h1 := h.sub
  have h2 := h.unsub
  constructor <;> split at h1 <;> split at h2 <;> omega

/-- The invariant. -/
structure MInv (cfg : Config) (m : Manager) : Prop where
  nodup : m.records.Nodup
  request : count m.records .request ≤ cfg.maxRequest
  stream : count m.records .stream ≤ cfg.maxStream
  usable : m.closed = false → ∀ f, PInv f (m.records.get f) m.log
  shut : m.closed = true → m.records = [] ∧ ∀ f, Bounded f m.log

theorem count_le {cfg : Config} {m : Manager} (h : MInv cfg m) (k : Kind) :
    count m.records k ≤ cfg.max k := by
  cases k
  · exact h.stream
  · exact h.request

theorem MInv.open_ {cfg : Config} {m m' : Manager} (h : MInv cfg m) (hc : m'.closed = false) (hn : m'.records.Nodup)
    (hk : ∀ k, count m'.records k ≤ count m.records k) (hp : ∀ f, PInv f (m'.records.get f) m'.log) : MInv cfg m' where
  nodup := hn
  request := Nat.le_trans (hk _) h.request
  stream := Nat.le_trans (hk _) h.stream
  usable := fun _ => hp
  shut := by rw [hc]; intro e; cases e

/-! ## Calls -/

theorem purge_ok {cfg : Config} {m : Manager} (h : MInv cfg m) (hc : m.closed = false) (env : Env) :
    ∃ m', m.purge env = .ok m' ∧ MInv cfg m' ∧ m'.closed = false ∧ m'.connected = m.connected := by
  obtain ⟨r, log, h1, h2, h3, h4⟩ := foreach_ok framed_pinv
    (keeps_of_good fun f r log hp => purge_good m.connected env hp) h.nodup (h.usable hc)
  refine ⟨{ m with records := r, log := log }, by simp only [Manager.purge, h1], h.open_ hc h2 h4 h3, hc, rfl⟩

theorem sessionLost_ok {cfg : Config} {m : Manager} (h : MInv cfg m) (hc : m.closed = false) (env : Env) :
    ∃ m', m.sessionLost env = .ok m' ∧ MInv cfg m' ∧ m'.closed = false ∧ m'.connected = m.connected := by
  obtain ⟨r, log, h1, h2, h3, h4⟩ := foreach_ok (Q := fun f o log => PInv f o log ∧ broker log f = false) (g := lostOne)
    (fun f g o log log' hp ha hne => ⟨ha.pinv hp.1 hne, by rw [ha.broker hne]; exact hp.2⟩)
    (fun f r log hp => by
      obtain ⟨o, log', h1, h2, h3⟩ := lost_good hp.1 hp.2
      exact ⟨o, log', h1, ⟨h2.inv, h3⟩, h2.about, h2.kind⟩)
    h.nodup (fun f => (h.usable hc f).sessionLost)
  obtain ⟨r', log', i1, i2, i3, i4⟩ := foreach_ok framed_pinv
    (keeps_of_good fun f r log hp => resubscribe_good m.connected env hp) h2 (fun f => (h3 f).1)
  exact ⟨{ m with records := r', log := log' }, by simp only [Manager.sessionLost, h1, i1],
    h.open_ hc i2 (fun k => Nat.le_trans (i4 k) (h4 k)) i3, hc, rfl⟩

theorem onConnection_ok {cfg : Config} {m : Manager} (h : MInv cfg m) (hc : m.closed = false) (env : Env)
    (up joined : Bool) : ∃ m', m.onConnection env up joined = .ok m' ∧ MInv cfg m' ∧ m'.closed = false := by
  cases up with
  | false => exact ⟨_, rfl, ⟨h.nodup, h.request, h.stream, h.usable, h.shut⟩, hc⟩
  | true =>
    have h0 : MInv cfg { m with connected := true } := ⟨h.nodup, h.request, h.stream, h.usable, h.shut⟩
    have h1 : ∃ m1, (if joined = true then .ok { m with connected := true }
        else Manager.sessionLost { m with connected := true } env) = .ok m1 ∧ MInv cfg m1 ∧ m1.closed = false := by
      cases joined with
      | true => exact ⟨_, rfl, h0, hc⟩
      | false =>
        obtain ⟨m1, e1, i1, c1, _⟩ := sessionLost_ok h0 hc env
        exact ⟨m1, e1, i1, c1⟩
    obtain ⟨m1, e1, i1, c1⟩ := h1
    obtain ⟨m2, e2, i2, c2, _⟩ := purge_ok i1 c1 env
    obtain ⟨r, log, h1, h2, h3, h4⟩ := foreach_ok framed_pinv
      (keeps_of_good fun f r log hp => activateOne_good m2.connected env hp) i2.nodup (i2.usable c2)
    refine ⟨{ m2 with records := r, log := log }, ?_, i2.open_ c2 h2 h4 h3, c2⟩
    simp only [Manager.onConnection, if_true, e1, e2, h1]

theorem count_set_some {m : AMap Bytes Record} (hn : m.Nodup) {f : Bytes} {r r' : Record} (hr : m.get f = some r)
    (hk : r'.kind = r.kind) (k : Kind) : count (m.set f r') k = count m k := by
  have h1 : count m k = count ((f, r) :: m.del f) k := (AMap.perm_del hn hr).countP_eq _
  rw [h1, AMap.set, count_cons, count_cons, hk]

theorem count_set_none {m : AMap Bytes Record} {f : Bytes} {r' : Record} (hr : m.get f = none) (k : Kind) :
    count (m.set f r') k = count m k + if r'.kind = k then 1 else 0 := by
  have h1 : count (m.set f r') k = count ((f, r') :: m) k := (AMap.perm_set f r' hr).countP_eq _
  rw [h1, count_cons]

/-- One record is replaced. -/
theorem set_pinv {m : AMap Bytes Record} {f : Bytes} {r' : Record} {log log' : List Trace}
    (h : ∀ g, PInv g (m.get g) log) (hp : PInv f (some r') log') (ha : About f log log') :
    ∀ g, PInv g ((m.set f r').get g) log' := by
  intro g
  rw [AMap.get_set]
  split
  · rename_i e; rw [e]; exact hp
  · rename_i hne; exact ha.pinv (h g) hne

theorem releaseOne_ok {m : AMap Bytes Record} {log : List Trace} (hn : m.Nodup) (h : ∀ f, PInv f (m.get f) log)
    (f : Bytes) (op : Nat) :
    (releaseOne m log f op).1.Nodup ∧ (∀ g, PInv g ((releaseOne m log f op).1.get g) (releaseOne m log f op).2) ∧
      ∀ k, count (releaseOne m log f op).1 k = count m k := by
  unfold releaseOne
  cases hr : m.get f with
  | none =>
    refine ⟨hn, ?_, fun _ => rfl⟩
    intro g
    by_cases he : g = f
    · subst he; rw [hr]; exact (hr ▸ h g).release_none op
    · exact (About.one (by simp [Trace.about])).pinv (h g) he
  | some r =>
    refine ⟨AMap.nodup_set hn _ _, ?_, fun k => count_set_some hn hr rfl k⟩
    have h1 := (hr ▸ h f : PInv f (some r) log).release op
    have ha : About f log (log ++ [.released op f]) := .one (by simp [Trace.about])
    simp only
    split
    · exact set_pinv h (h1.still (by simp [Trace.still])) (ha.trans (.one (by simp [Trace.about])))
    · exact set_pinv h h1 ha

theorem release_ok {cfg : Config} {m : Manager} (h : MInv cfg m) (hc : m.closed = false) (fs : List Bytes) (op : Nat) :
    MInv cfg (m.release fs op) ∧ (m.release fs op).closed = false := by
  induction fs generalizing m with
  | nil => exact ⟨h, hc⟩
  | cons f fs ih =>
    obtain ⟨h1, h2, h3⟩ := releaseOne_ok h.nodup (h.usable hc) f op
    exact ih (m := { m with records := _, log := _ }) (h.open_ hc h1 (fun k => Nat.le_of_eq (h3 k)) h2) hc

theorem onSubscription_ok {cfg : Config} {m : Manager} (h : MInv cfg m) (hc : m.closed = false) (env : Env) (f : Bytes)
    (a : Action) (ok retryable : Bool) (ho : outstanding m.log a f > 0) :
    ∃ m', m.onSubscription env f a ok retryable = .ok m' ∧ MInv cfg m' ∧ m'.closed = false := by
  have hp := h.usable hc f
  cases hr : m.records.get f with
  | none =>
    rw [hr] at hp
    have h1 := hp.sub
    have h2 := hp.unsub
    cases a <;> simp_all
  | some r =>
    rw [hr] at hp
    have hpend : r.pending = a.awaits := by
      have h1 := hp.sub
      have h2 := hp.unsub
      cases a <;> cases hx : r.pending <;> simp_all [Action.awaits]
    have key : ∀ x : Except Fault (Record × List Trace),
        (∃ r' log', x = .ok (r', log') ∧ Good f r m.log (some r') log') →
        ∃ m', (match x with
          | .error e => .error e
          | .ok (r, log) => .ok { m with records := m.records.set f r, log := log } : Except Fault Manager) = .ok m' ∧
          MInv cfg m' ∧ m'.closed = false := by
      rintro _ ⟨r', log', rfl, hg⟩
      refine ⟨_, rfl, h.open_ hc (AMap.nodup_set h.nodup _ _) ?_ (set_pinv (h.usable hc) hg.inv hg.about), hc⟩
      exact fun k => Nat.le_of_eq (count_set_some h.nodup hr (hg.kind r' rfl) k)
    simp only [Manager.onSubscription, hr]
    apply key
    cases hk : r.kind with
    | request => exact request_good a ok hp hpend hk
    | stream => exact stream_good m.connected env a ok retryable hp hpend hk

/-- What holds while the records are cleaned up. -/
def Cleaning (f : Bytes) (o : Option Record) (log : List Trace) : Prop :=
  match o with
  | some r => PInv f (some r) log
  | none => Bounded f log

theorem About.bounded {f g : Bytes} {log log' : List Trace} (ha : About g log log') (h : Bounded f log) (hne : f ≠ g) :
    Bounded f log' := by
  constructor <;> rw [ha.outstanding hne]
  · exact h.sub_nonneg
  · exact h.sub_le
  · exact h.unsub_nonneg
  · exact h.unsub_le

theorem PInv.cleaned {f : Bytes} {r : Record} {log : List Trace} (h : PInv f (some r) log) (env : Env) :
    Bounded f (unsubscribe env f r true log).2 ∧ About f log (unsubscribe env f r true log).2 := by
  unfold unsubscribe
  split
  · rename_i hx
    split
    · refine ⟨?_, .one (by simp [Trace.about])⟩
      have h1 := h.sub
      have h2 := h.unsub
      have h3 := h.bounded
      have hne : r.pending ≠ .unsubscribing := by
        intro e
        simp [e] at hx
      rw [if_neg (by simpa using hne)] at h2
      constructor <;> rw [outstanding_one] <;> simp [Trace.change, h2]
      · exact h3.sub_nonneg
      · exact h3.sub_le
    · exact ⟨h.bounded, .refl⟩
  · exact ⟨h.bounded, .refl⟩

theorem foreach_none {g : Bytes → Record → List Trace → List Trace} :
    ∀ {m : AMap Bytes Record} {log : List Trace} {m' : AMap Bytes Record} {log' : List Trace},
      foreach (fun f r log => .ok (none, g f r log)) m log = .ok (m', log') → m' = [] := by
  intro m
  induction m with
  | nil => intro log m' log' h; cases h; rfl
  | cons e m ih =>
    intro log m' log' h
    obtain ⟨f, r⟩ := e
    simp only [foreach] at h
    split at h
    · cases h
    · rename_i h1
      cases h
      exact ih h1

theorem cleanUp_ok {cfg : Config} {m : Manager} (h : MInv cfg m) (hc : m.closed = false) (env : Env) :
    ∃ m', m.cleanUp env = .ok m' ∧ MInv cfg m' ∧ m'.closed = true := by
  have h0 : ∀ f, PInv f (m.records.get f) (m.log ++ [.closed]) := fun f => (h.usable hc f).still (by simp [Trace.still])
  obtain ⟨r, log, h1, h2, h3, h4⟩ := foreach_ok (Q := Cleaning)
    (g := fun f r log => .ok (none, (unsubscribe env f r true log).2)) (m := m.records) (log := m.log ++ [.closed])
    (by
      intro f g o log log' hp ha hne
      cases o with
      | none => exact ha.bounded hp hne
      | some r => exact ha.pinv hp hne)
    (by
      intro f r log hp
      exact ⟨_, _, rfl, (PInv.cleaned hp env).1, (PInv.cleaned hp env).2, by intro r' e; cases e⟩)
    h.nodup
    (by
      intro f
      have := h0 f
      cases hr : m.records.get f with
      | none => rw [hr] at this; exact this.bounded
      | some r => rw [hr] at this; exact this)
  have h5 := foreach_none h1
  subst h5
  refine ⟨{ m with records := [], log := log, closed := true }, by simp only [Manager.cleanUp, h1], ?_, rfl⟩
  exact ⟨AMap.nodup_nil, Nat.zero_le _, Nat.zero_le _, (by intro e; cases e), fun _ => ⟨rfl, fun f => h3 f⟩⟩

/-! ## Acquisition -/

/-- Every filter may be acquired. -/
def Fits (kind : Kind) (m : AMap Bytes Record) (fs : List Bytes) : Prop :=
  ∀ f ∈ fs, ∀ r, m.get f = some r → r.kind = kind ∧ r.pending ≠ .unsubscribing

theorem countP_le {α : Type} {p q : α → Bool} {l : List α} (h : ∀ x, p x = true → q x = true) :
    l.countP p ≤ l.countP q := List.countP_mono_left fun x _ hx => h x hx

theorem listen_ok (op : Nat) (kind : Kind) : ∀ (fs : List Bytes) (m : AMap Bytes Record) (log : List Trace) (full : Bool),
    m.Nodup → (∀ f, PInv f (m.get f) log) → Fits kind m fs →
    (listen op kind fs m log full).1.Nodup ∧
      (∀ f, PInv f ((listen op kind fs m log full).1.get f) (listen op kind fs m log full).2.1) ∧
      (∀ f, f ∈ fs ∨ m.get f ≠ none → (listen op kind fs m log full).1.get f ≠ none) ∧
      ∀ k, count (listen op kind fs m log full).1 k ≤
        count m k + if kind = k then fs.countP fun f => (m.get f).isNone else 0 := by
  intro fs
  induction fs with
  | nil =>
    intro m log full hn hp _
    refine ⟨hn, hp, ?_, ?_⟩
    · intro f hf
      rcases hf with hf | hf
      · cases hf
      · exact hf
    · intro k; exact Nat.le_add_right _ _
  | cons f fs ih =>
    intro m log full hn hp hfit
    have hk : ∀ r, m.get f = some r → r.kind = kind := fun r hr => (hfit f (by simp) r hr).1
    have hkd : (addListener ((m.get f).getD { kind := kind }) op).kind = kind := by
      cases hr : m.get f with
      | none => rfl
      | some r => exact hk r hr
    have hpd : ∀ r, m.get f = some r → r.pending ≠ .unsubscribing := fun r hr => (hfit f (by simp) r hr).2
    have h1 := (hp f).listen op (kind := kind) (by
      cases hr : m.get f with
      | none => rfl
      | some r => simpa using hpd r hr) hk
    have hpn : (addListener ((m.get f).getD { kind := kind }) op).pending ≠ .unsubscribing := by
      cases hr : m.get f with
      | none => simp [addListener]
      | some r => exact hpd r hr
    obtain ⟨i1, i2, i3, i4⟩ := ih (m.set f (addListener ((m.get f).getD { kind := kind }) op))
      (log ++ [.acquired op f kind]) (full && ((m.get f).getD { kind := kind }).subscribed) (AMap.nodup_set hn _ _)
      (set_pinv hp h1 (.one (by simp [Trace.about]))) (by
        intro g hg r hr
        rw [AMap.get_set] at hr
        split at hr
        · cases hr; exact ⟨hkd, hpn⟩
        · exact hfit g (by simp [hg]) r hr)
    refine ⟨i1, i2, ?_, ?_⟩
    · intro g hg
      apply i3
      rw [AMap.get_set]
      by_cases he : g = f
      · right; simp [he]
      · rw [if_neg he]
        rcases hg with hg | hg
        · rcases List.mem_cons.1 hg with hg | hg
          · exact absurd hg he
          · exact .inl hg
        · exact .inr hg
    · intro k
      refine Nat.le_trans (i4 k) ?_
      have hle : (fs.countP fun g => ((m.set f (addListener ((m.get f).getD { kind := kind }) op)).get g).isNone) ≤
          fs.countP fun g => (m.get g).isNone := by
        apply countP_le
        intro g
        rw [AMap.get_set]
        split
        · intro h; cases h
        · exact id
      rw [List.countP_cons]
      cases hr : m.get f with
      | none =>
        rw [hr] at hle
        rw [count_set_none hr]
        rw [hr] at hkd
        rw [hkd]
        simp only [Option.isNone_none, if_true]
        split <;> omega
      | some r =>
        rw [hr] at hle
        rw [count_set_some (r' := addListener ((some r).getD { kind := kind }) op) hn hr rfl]
        simp only [Option.getD_some] at hle ⊢
        simp
        split <;> omega

theorem activateAll_ok (connected : Bool) (env : Env) : ∀ (fs : List Bytes) (m : AMap Bytes Record) (log : List Trace),
    m.Nodup → (∀ f, PInv f (m.get f) log) → (∀ f ∈ fs, m.get f ≠ none) →
    ∃ ok m' log', activateAll connected env fs m log = .ok (ok, m', log') ∧ m'.Nodup ∧
      (∀ f, PInv f (m'.get f) log') ∧ ∀ k, count m' k = count m k := by
  intro fs
  induction fs with
  | nil => intro m log hn hp _; exact ⟨_, _, _, rfl, hn, hp, fun _ => rfl⟩
  | cons f fs ih =>
    intro m log hn hp hf
    cases hr : m.get f with
    | none => exact absurd hr (hf f (by simp))
    | some r =>
      have h0 := hp f
      rw [hr] at h0
      obtain ⟨ok, r', log', h1, h2⟩ := activate_good connected env h0
      have h3 := set_pinv hp h2.inv h2.about
      have h4 := fun k => count_set_some hn hr (h2.kind r' rfl) k
      simp only [activateAll, hr, h1]
      cases ok with
      | false => exact ⟨_, _, _, rfl, AMap.nodup_set hn _ _, h3, h4⟩
      | true =>
        obtain ⟨ok, m', log'', i1, i2, i3, i4⟩ := ih (m.set f r') log' (AMap.nodup_set hn _ _) h3 (by
          intro g hg
          rw [AMap.get_set]
          split
          · simp
          · exact hf g (by simp [hg]))
        simp only [if_true, i1]
        exact ⟨_, _, _, rfl, i2, i3, fun k => (i4 k).trans (h4 k)⟩

theorem acquire_ok {cfg : Config} {m : Manager} (h : MInv cfg m) (hc : m.closed = false) (env : Env) (fs : List Bytes)
    (op : Nat) (kind : Kind) :
    ∃ res m', m.acquire cfg env fs op kind = .ok (res, m') ∧ MInv cfg m' ∧ m'.closed = false := by
  unfold Manager.acquire
  split
  · exact ⟨_, _, rfl, h, hc⟩
  split
  · exact ⟨_, _, rfl, h, hc⟩
  rename_i hp1
  split
  · exact ⟨_, _, rfl, h, hc⟩
  rename_i hp2
  simp only
  split
  · exact ⟨_, _, rfl, h, hc⟩
  rename_i hb1
  split
  · split
    · exact ⟨_, _, rfl, h, hc⟩
    · exact ⟨_, _, rfl, h, hc⟩
  rename_i hb2
  have hfit : Fits kind m.records fs := by
    intro f hf r hr
    simp only [List.any_eq_true, not_exists, not_and] at hp1 hp2
    have h1 := hp1 f hf
    have h2 := hp2 f hf
    simp only [hr, Option.any_some] at h1 h2
    constructor
    · simp at h1; exact h1.2
    · simpa using h2
  obtain ⟨l1, l2, l3, l4⟩ := listen_ok op kind fs m.records m.log true h.nodup (h.usable hc) hfit
  have hbud : count m.records kind + (fs.countP fun f => (m.records.get f).isNone) ≤
      cfg.max kind := by
    have hr := h.request
    have hs := h.stream
    generalize (fs.countP fun f => (m.records.get f).isNone) = n at hb1 hb2 ⊢
    cases kind with
    | request =>
      simp only [subSize, hr, if_true] at hb1
      simp at hb1
      simp only [Config.max]
      omega
    | stream =>
      simp at hb2
      simp only [Config.max]
      omega
  have hcount : ∀ k, count (listen op kind fs m.records m.log true).1 k ≤
      cfg.max k := by
    intro k
    refine Nat.le_trans (l4 k) ?_
    split
    · rename_i e; subst e; exact hbud
    · exact count_le h k
  generalize listen op kind fs m.records m.log true = x at l1 l2 l3 l4 hcount ⊢
  obtain ⟨records, log, full⟩ := x
  simp only at l1 l2 l3 l4 hcount ⊢
  cases full with
  | true => exact ⟨_, _, rfl, ⟨l1, hcount .request, hcount .stream, fun _ => l2, by intro e; simp [hc] at e⟩, hc⟩
  | false =>
    obtain ⟨ok, r', log', a1, a2, a3, a4⟩ := activateAll_ok m.connected env fs records log l1 l2 (fun f hf => l3 f (.inl hf))
    simp only [Bool.false_eq_true, if_false, a1]
    exact ⟨_, _, rfl, ⟨a2, by rw [a4]; exact hcount .request, by rw [a4]; exact hcount .stream, fun _ => a3,
      by intro e; simp [hc] at e⟩, hc⟩

/-- No enabled call faults, and the invariant is kept. -/
theorem step_ok {cfg : Config} {m : Manager} (h : MInv cfg m) (e : Event) (he : Enabled m e) :
    ∃ m', step cfg m e = .ok m' ∧ MInv cfg m' := by
  cases e with
  | acquire env fs op kind =>
    obtain ⟨res, m', h1, h2, _⟩ := acquire_ok h he env fs op kind
    exact ⟨m', by simp only [step, h1], h2⟩
  | release fs op => exact ⟨_, rfl, (release_ok h he fs op).1⟩
  | purge env =>
    obtain ⟨m', h1, h2, _⟩ := purge_ok h he env
    exact ⟨m', h1, h2⟩
  | finished env f a ok retryable =>
    obtain ⟨m', h1, h2, _⟩ := onSubscription_ok h he.1 env f a ok retryable he.2
    exact ⟨m', h1, h2⟩
  | connection env up joined =>
    obtain ⟨m', h1, h2, _⟩ := onConnection_ok h he env up joined
    exact ⟨m', h1, h2⟩
  | cleanUp env =>
    obtain ⟨m', h1, h2, _⟩ := cleanUp_ok h he env
    exact ⟨m', h1, h2⟩

/-! ## Iteration orders -/

theorem PInv.rehash {f : Bytes} {r : Record} {log : List Trace} {l : List Nat} (h : PInv f (some r) log)
    (hl : l.Perm r.listeners) : PInv f (some { r with listeners := l }) log where
  sub := h.sub
  unsub := h.unsub
  idle := by intro r' e; cases e; exact h.idle r rfl
  unused := by
    intro r' e; cases e; intro hp
    have := h.unused r rfl hp
    rw [this] at hl
    exact hl.eq_nil
  server := by intro hb; obtain ⟨r', e, h1⟩ := h.server hb; cases e; exact ⟨_, rfl, h1⟩
  needed := by intro i hi; obtain ⟨r', e, h1⟩ := h.needed i hi; cases e; exact ⟨_, rfl, hl.mem_iff.2 h1⟩
  kind := by intro r' e; cases e; exact h.kind r rfl
  safe := h.safe

theorem rehash_get {m m' : AMap Bytes Record} (hn : m.Nodup) (h : Rehash m m') :
    m'.Nodup ∧ (∀ k, count m' k = count m k) ∧
      ∀ f, ∃ l : Record → List Nat, (∀ r, (l r).Perm r.listeners) ∧
        m'.get f = (m.get f).map fun r => { r with listeners := l r } := by
  obtain ⟨g, hg, hp⟩ := h
  have hkeys : AMap.Nodup (m.map fun e => (e.1, { e.2 with listeners := g e.1 e.2 })) := by
    unfold AMap.Nodup AMap.keys
    rw [List.map_map]
    exact hn
  have hn' : m'.Nodup := (hp.map _).nodup_iff.2 hkeys
  refine ⟨hn', ?_, ?_⟩
  · intro k
    unfold count
    rw [hp.countP_eq, List.countP_map]
    rfl
  · intro f
    refine ⟨g f, hg f, ?_⟩
    cases hr : m.get f with
    | some r =>
      simp only [Option.map_some]
      rw [← AMap.mem_iff_get hn', hp.mem_iff, List.mem_map]
      exact ⟨(f, r), AMap.get_some_mem hr, rfl⟩
    | none =>
      cases hr' : m'.get f with
      | none => rfl
      | some r' =>
        have := AMap.get_some_mem hr'
        rw [hp.mem_iff, List.mem_map] at this
        obtain ⟨⟨f0, r0⟩, h1, h2⟩ := this
        cases h2
        rw [AMap.mem_iff_get hn, hr] at h1
        cases h1

theorem rehash_ok {cfg : Config} {m : Manager} {records : AMap Bytes Record} (h : MInv cfg m)
    (hr : Rehash m.records records) : MInv cfg { m with records } := by
  obtain ⟨h1, h2, h3⟩ := rehash_get h.nodup hr
  refine ⟨h1, by rw [h2]; exact h.request, by rw [h2]; exact h.stream, ?_, ?_⟩
  · intro hc f
    have hp := h.usable hc f
    obtain ⟨l, hl, e⟩ := h3 f
    simp only [e]
    cases hx : m.records.get f with
    | none => rw [hx] at hp; exact hp
    | some r => rw [hx] at hp; exact hp.rehash (hl r)
  · intro hc
    refine ⟨?_, (h.shut hc).2⟩
    obtain ⟨g, hg, hp⟩ := hr
    rw [(h.shut hc).1] at hp
    exact hp.eq_nil

theorem reachable_minv {cfg : Config} {m : Manager} (h : Reachable cfg m) : MInv cfg m := by
  induction h with
  | new connected =>
    refine ⟨AMap.nodup_nil, Nat.zero_le _, Nat.zero_le _, ?_, (by intro e; cases e)⟩
    intro _ f
    refine ⟨rfl, rfl, ?_, ?_, ?_, ?_, ?_, ?_⟩
    · intro r e; cases e
    · intro r e; cases e
    · intro e; cases e
    · intro i e; cases e
    · intro r e; cases e
    · intro a b e; cases a <;> cases e
  | step _ he hs ih =>
    obtain ⟨m1, h1, h2⟩ := step_ok ih _ he
    rw [h1] at hs
    cases hs
    exact h2
  | rehash _ hr ih => exact rehash_ok ih hr

end Mqtt.Rr
