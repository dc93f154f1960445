import Verif.Lemmas.Client311Log

/-! Which requests have been sent on which channel of the 3.1.1 connection. -/
namespace Mqtt.Client311

theorem sentOn_append {log l : List Trace} {u n : Nat} : SentOn (log ++ l) u n ↔ SentOn log u n ∨ SentOn l u n := by
  simp only [SentOn, List.mem_append]
  constructor
  · rintro ⟨d, h | h⟩
    · exact .inl ⟨d, h⟩
    · exact .inr ⟨d, h⟩
  · rintro (⟨d, h⟩ | ⟨d, h⟩)
    · exact ⟨d, .inl h⟩
    · exact ⟨d, .inr h⟩

theorem not_sentOn {l : List Trace} (hl : ∀ t ∈ l, isSend t = false) {u n : Nat} : ¬ SentOn l u n := by
  rintro ⟨d, h⟩
  have := hl _ h
  simp [isSend] at this

theorem sentOn_calm {log l : List Trace} (hl : ∀ t ∈ l, isSend t = false) {u n : Nat} :
    SentOn (log ++ l) u n ↔ SentOn log u n := by
  rw [sentOn_append]
  exact ⟨fun h => h.elim (fun h => h) (fun h => (not_sentOn hl h).elim), .inl⟩

theorem sentOn_cons {l : List Trace} (hl : ∀ t ∈ l, isSend t = false) {u n v m : Nat} {d : Bool} :
    SentOn (.sent v m d :: l) u n ↔ u = v ∧ n = m := by
  constructor
  · rintro ⟨d', h⟩
    rcases List.mem_cons.1 h with h | h
    · cases h; exact ⟨rfl, rfl⟩
    · exact (not_sentOn hl ⟨d', h⟩).elim
  · rintro ⟨rfl, rfl⟩
    exact ⟨d, List.mem_cons_self ..⟩

structure Sends (c : Conn) : Prop where
  /-- A request that waits for an acknowledgement has been sent on the channel. -/
  on : ∀ u ∈ c.ongoing, ∃ n, c.chan = some n ∧ SentOn c.log u n
  /-- A request that has been sent on the channel waits for an acknowledgement unless it has been completed. -/
  back : ∀ u n, SentOn c.log u n → u ∈ c.live → c.chan = some n → u ∈ c.ongoing
  chans : ∀ u n, SentOn c.log u n → n < c.nextChan
  begun : ∀ u r, c.reqs.get u = some r → (r.initiated = true ↔ ∃ n, SentOn c.log u n)
  below : ∀ u n, SentOn c.log u n → u < c.nextUid

theorem Sends.init : Sends {} where
  on := by simp
  back := by simp [SentOn]
  chans := by simp [SentOn]
  begun := by intro u r h; simp at h
  below := by simp [SentOn]

/-- What is kept of a request by an event that does not send it. -/
def Request.same (r r' : Request) : Prop := r.initiated = r'.initiated ∧ r.kind = r'.kind ∧ r.topics = r'.topics

theorem Request.same_refl (r : Request) : r.same r := ⟨rfl, rfl, rfl⟩

/-- What an event that sends nothing does to the requests. -/
structure Keeps (c f : Conn) : Prop where
  req : ∀ u r', f.reqs.get u = some r' →
    (∃ r, c.reqs.get u = some r ∧ r.same r') ∨ (c.nextUid ≤ u ∧ r'.initiated = false ∧ r'.topics = r'.kind.topics)
  on : ∀ u ∈ f.ongoing, u ∈ c.ongoing ∧ f.chan = c.chan
  back : f.chan = none ∨ f.chan = some c.nextChan ∨
    (f.chan = c.chan ∧ ∀ u ∈ f.live, (u ∈ c.live ∧ (u ∈ c.ongoing → u ∈ f.ongoing)) ∨ c.nextUid ≤ u)
  nchan : c.nextChan ≤ f.nextChan
  nuid : c.nextUid ≤ f.nextUid

theorem Keeps.same {c f : Conn} (h1 : f.reqs = c.reqs) (h2 : f.ongoing = c.ongoing) (h3 : f.chan = c.chan)
    (h4 : ∀ u ∈ f.live, u ∈ c.live) (h5 : f.nextChan = c.nextChan) (h6 : f.nextUid = c.nextUid) : Keeps c f where
  req := fun u r h => .inl ⟨r, by rw [← h1]; exact h, r.same_refl⟩
  on := fun u hu => ⟨h2 ▸ hu, h3⟩
  back := .inr (.inr ⟨h3, fun u hu => .inl ⟨h4 u hu, fun h => h2 ▸ h⟩⟩)
  nchan := Nat.le_of_eq h5.symm
  nuid := Nat.le_of_eq h6.symm

theorem Keeps.trans_left {a b c : Conn} (h : Keeps b c) (h1 : b.reqs = a.reqs) (h2 : b.ongoing = a.ongoing)
    (h3 : b.chan = a.chan) (h4 : b.live = a.live) (h5 : b.nextChan = a.nextChan) (h6 : b.nextUid = a.nextUid) :
    Keeps a c where
  req := fun u r hr => by have := h.req u r hr; rwa [h1, h6] at this
  on := fun u hu => by have := h.on u hu; rwa [h2, h3] at this
  back := by have := h.back; rwa [h3, h4, h5, h2, h6] at this
  nchan := h5 ▸ h.nchan
  nuid := h6 ▸ h.nuid

theorem Sends.keeps {c f : Conn} (h : Sends c) (k : Keeps c f) (hl : Calm c f) : Sends f := by
  obtain ⟨l, e, hl⟩ := hl
  have hs : ∀ u n, SentOn f.log u n ↔ SentOn c.log u n := fun u n => by rw [e]; exact sentOn_calm hl
  refine ⟨?_, ?_, ?_, ?_, ?_⟩
  · intro u hu
    obtain ⟨h1, h2⟩ := k.on u hu
    obtain ⟨n, h3, h4⟩ := h.on u h1
    exact ⟨n, h2.trans h3, (hs u n).2 h4⟩
  · intro u n hsn hlv hc
    rw [hs] at hsn
    rcases k.back with hb | hb | ⟨hb, hk⟩
    · rw [hb] at hc; cases hc
    · rw [hb] at hc; cases hc
      exact absurd (h.chans _ _ hsn) (Nat.lt_irrefl _)
    · rw [hb] at hc
      rcases hk u hlv with ⟨h1, h2⟩ | h1
      · exact h2 (h.back u n hsn h1 hc)
      · have := h.below _ _ hsn; omega
  · intro u n hsn
    exact Nat.lt_of_lt_of_le (h.chans _ _ ((hs u n).1 hsn)) k.nchan
  · intro u r hr
    simp only [hs]
    rcases k.req u r hr with ⟨r0, h0, e0, _⟩ | ⟨h1, h2, _⟩
    · rw [← e0]; exact h.begun u r0 h0
    · rw [h2]
      refine ⟨(fun h => by cases h), ?_⟩
      rintro ⟨n, hn⟩
      have := h.below _ _ hn; omega
  · intro u n hsn
    exact Nat.lt_of_lt_of_le (h.below _ _ ((hs u n).1 hsn)) k.nuid

theorem create_keeps {c c' : Conn} {kind : Kind} {size : Nat} (h : c.create kind size = .ok c') : Keeps c c' := by
  have hreq : ∀ id u r', (c.reqs.set c.nextUid (newRequest kind id size)).get u = some r' →
      (∃ r, c.reqs.get u = some r ∧ r.same r') ∨ (c.nextUid ≤ u ∧ r'.initiated = false ∧ r'.topics = r'.kind.topics) := by
    intro id u r' hr
    rw [AMap.get_set] at hr
    split at hr
    · next e => cases hr; exact .inr ⟨Nat.le_of_eq e.symm, rfl, rfl⟩
    · exact .inl ⟨r', hr, r'.same_refl⟩
  rcases create_cases h with ⟨e, _⟩ | ⟨e, _⟩ | ⟨r, _, ⟨_, e⟩ | ⟨_, _, _, ⟨_, e⟩ | ⟨_, n, _, hn, e⟩ | ⟨_, _, e⟩⟩⟩
  · cases e; exact Keeps.same rfl rfl rfl (fun _ h => h) rfl rfl
  · cases e; exact Keeps.same rfl rfl rfl (fun _ h => h) rfl rfl
  · cases e; exact Keeps.same rfl rfl rfl (fun _ h => h) rfl rfl
  · cases e
    refine ⟨hreq r.1, fun u hu => ⟨hu, rfl⟩, .inr (.inr ⟨rfl, ?_⟩), Nat.le_refl _, Nat.le_succ _⟩
    intro u hu
    simp only [Conn.live, Conn.added, List.mem_append, List.mem_singleton] at hu ⊢
    rcases hu with (((h | h) | h) | h) | h
    · exact .inl ⟨.inl (.inl (.inl h)), fun x => x⟩
    · exact .inr (Nat.le_of_eq h.symm)
    · exact .inl ⟨.inl (.inl (.inr h)), fun x => x⟩
    · exact .inl ⟨.inl (.inr h), fun x => x⟩
    · exact .inl ⟨.inr h, fun x => x⟩
  · cases e
    refine ⟨hreq r.1, fun u hu => ⟨hu, rfl⟩, .inr (.inr ⟨rfl, ?_⟩), Nat.le_refl _, Nat.le_succ _⟩
    intro u hu
    simp only [Conn.live, Conn.added, List.map_append, List.map_cons, List.map_nil, List.mem_append,
      List.mem_singleton] at hu ⊢
    rcases hu with ((h | h) | h | h) | h
    · exact .inl ⟨.inl (.inl (.inl h)), fun x => x⟩
    · exact .inl ⟨.inl (.inl (.inr h)), fun x => x⟩
    · exact .inl ⟨.inl (.inr h), fun x => x⟩
    · exact .inr (Nat.le_of_eq h.symm)
    · exact .inl ⟨.inr h, fun x => x⟩
  · cases e

theorem get_del_sub {m : AMap Nat Request} {u v : Nat} {r : Request} (h : (m.del u).get v = some r) :
    m.get v = some r := by
  rw [AMap.get_del] at h
  split at h
  · cases h
  · exact h

theorem finish_keeps {c c' : Conn} (hh : Held c) (hb : c.busy = .idle) {id : Nat} {o : Outcome}
    (h : c.finish id o = .ok c') : Keeps c c' := by
  rcases finish_cases h with ⟨_, e⟩ | ⟨u, ht, ⟨hm, e⟩ | ⟨_, _, e⟩⟩
  · cases e; exact Keeps.same rfl rfl rfl (fun _ h => h) rfl rfl
  · cases e
    have hst := hh.idleStore hb
    obtain ⟨r, hr, _⟩ := hh.place hb ht
    have hnd : c.live.Nodup := by have := hst.nodup; rwa [List.append_nil] at this
    have hp := perm_takeOut hnd hm
    rw [complete_eq hr]
    refine ⟨fun v s hs => .inl ⟨s, get_del_sub hs, s.same_refl⟩, fun v hv => ⟨(List.mem_filter.1 hv).1, rfl⟩,
      .inr (.inr ⟨rfl, ?_⟩), Nat.le_refl _, Nat.le_refl _⟩
    intro v hv
    have hu := (List.nodup_cons.1 (hp.nodup_iff.1 hnd)).1
    have hvu : v ≠ u := fun e => hu (e ▸ hv)
    exact .inl ⟨hp.mem_iff.2 (List.mem_cons_of_mem _ hv), fun h => List.mem_filter.2 ⟨h, by simpa using hvu⟩⟩
  · cases e

theorem suback_keeps {c c' : Conn} (hh : Held c) (hb : c.busy = .idle) {chan id codes : Nat}
    (h : c.suback chan id codes = .ok c') : Keeps c c' := by
  unfold Conn.suback at h
  split at h
  · cases h; exact Keeps.same rfl rfl rfl (fun _ h => h) rfl rfl
  · split at h
    · cases h
    · split at h
      · cases h
      · split at h
        · cases h; exact Keeps.same rfl rfl rfl (fun _ h => h) rfl rfl
        · exact finish_keeps hh hb h

theorem connack_keeps {c : Conn} {chan : Nat} {acc : Bool} : Keeps c (c.connack chan acc) := by
  unfold Conn.connack
  split
  · exact Keeps.same rfl rfl rfl (fun _ h => h) rfl rfl
  · split
    · have key : ∀ u, u ∈ [] ++ c.ongoing ++ (c.tasks ++ c.pending.map (·, chan)).map (·.1) ++ c.busy.todo →
          u ∈ c.live := by
        intro u hu
        simp only [Conn.live, List.nil_append, List.map_append, List.map_map, List.mem_append, List.mem_map] at hu ⊢
        rcases hu with (h | h | h) | h
        · exact .inl (.inl (.inr h))
        · exact .inl (.inr h)
        · obtain ⟨a, h1, h2⟩ := h
          have h2 : a = u := h2
          exact .inl (.inl (.inl (h2 ▸ h1)))
        · exact .inr h
      simp only
      split
      · exact Keeps.same rfl rfl rfl key rfl rfl
      · exact Keeps.same rfl rfl rfl key rfl rfl
    · exact Keeps.same rfl rfl rfl (fun _ h => h) rfl rfl

theorem receive_keeps {c c' : Conn} (hh : Held c) (hb : c.busy = .idle) {chan : Nat} {p : Packet}
    (h : c.receive chan p = .ok c') : Keeps c c' := by
  have t1 : ∀ {t d}, Keeps (c.tell t) d → Keeps c d := fun k => k.trans_left rfl rfl rfl rfl rfl rfl
  unfold Conn.receive at h
  split at h
  · cases h; exact Keeps.same rfl rfl rfl (fun _ h => h) rfl rfl
  · cases h; exact connack_keeps
  · split at h
    · cases h; exact Keeps.same rfl rfl rfl (fun _ h => h) rfl rfl
    · split at h
      · cases h
        split
        · exact Keeps.same rfl rfl rfl (fun _ h => h) rfl rfl
        · exact Keeps.same rfl rfl rfl (fun _ h => h) rfl rfl
      · exact t1 (finish_keeps (hh.tell rfl) hb h)
      · exact t1 (finish_keeps (hh.tell rfl) hb h)
      · exact t1 (finish_keeps (hh.tell rfl) hb h)
      · exact t1 (suback_keeps (hh.tell rfl) hb h)
      · cases h; exact Keeps.same rfl rfl rfl (fun _ h => h) rfl rfl
      · cases h; exact Keeps.same rfl rfl rfl (fun _ h => h) rfl rfl
      · cases h; exact Keeps.same rfl rfl rfl (fun _ h => h) rfl rfl

theorem removeAll_sub (l : List Nat) (c : Conn) {u : Nat} {r : Request}
    (h : (l.foldl Conn.remove c).reqs.get u = some r) : c.reqs.get u = some r := by
  induction l generalizing c with
  | nil => exact h
  | cons v l ih =>
    have := ih (c.remove v) h
    unfold Conn.remove at this
    split at this
    · exact this
    · exact get_del_sub this

theorem delAll_sub (l : List Nat) (m : AMap Nat Request) {u : Nat} {r : Request}
    (h : (l.foldl (fun m uid => m.del uid) m).get u = some r) : m.get u = some r := by
  induction l generalizing m with
  | nil => exact h
  | cons v l ih => exact get_del_sub (ih _ h)

/-- Nothing is going on on a channel. -/
theorem Keeps.closed {c f : Conn} (h1 : ∀ u r, f.reqs.get u = some r → c.reqs.get u = some r) (h2 : f.ongoing = [])
    (h3 : f.chan = none) (h5 : f.nextChan = c.nextChan) (h6 : f.nextUid = c.nextUid) : Keeps c f where
  req := fun u r h => .inl ⟨r, h1 u r h, r.same_refl⟩
  on := fun u hu => by rw [h2] at hu; cases hu
  back := .inl h3
  nchan := Nat.le_of_eq h5.symm
  nuid := Nat.le_of_eq h6.symm

theorem release_keeps {c d c' : Conn} (hs : d.release = .ok c') (h1 : ∀ u r, d.reqs.get u = some r → c.reqs.get u = some r)
    (h2 : d.ongoing = []) (h3 : d.chan = none) (h5 : d.nextChan = c.nextChan) (h6 : d.nextUid = c.nextUid) : Keeps c c' := by
  rcases release_cases hs with ⟨rfl, _⟩ | ⟨rfl, _⟩
  · exact Keeps.closed h1 h2 h3 h5 h6
  · exact Keeps.closed (fun u r h => h1 u r (delAll_sub _ _ h)) h2 h3 h5 h6

theorem schedule_keeps {c d c' : Conn} (hs : d.schedule = .ok c') (h1 : ∀ u r, d.reqs.get u = some r → c.reqs.get u = some r)
    (h2 : d.ongoing = []) (h3 : d.chan = none) (h5 : d.nextChan = c.nextChan) (h6 : d.nextUid = c.nextUid) : Keeps c c' := by
  unfold Conn.schedule at hs
  split at hs
  · cases hs
  · cases hs; exact Keeps.closed h1 h2 h3 h5 h6

theorem advance_keeps {c c' : Conn} (hc : Ctl c) (hs : c.advance = .ok c') : Keeps c c' := by
  unfold Conn.advance at hs
  split at hs
  · next all uid todo next hb =>
    obtain ⟨ho, hch, hr⟩ := hc.busyOpen (by rw [hb]; intro h; cases h)
    cases hs
    exact Keeps.closed (fun _ _ h => h) (hc.noChan hch).2.2.2 hch rfl rfl
  · next all next hb =>
    obtain ⟨ho, hch, hr⟩ := hc.busyOpen (by rw [hb]; intro h; cases h)
    have hsub := fun u r => removeAll_sub all c (u := u) (r := r)
    obtain ⟨rq, tb, tm, e, htm⟩ := removeAll_eq all c
    rw [e] at hsub
    simp only at hs hsub
    rw [e] at hs
    have ho := (hc.noChan hch).2.2.2
    split at hs
    · cases hs; exact Keeps.closed hsub ho hch rfl rfl
    · exact schedule_keeps hs hsub ho hch rfl rfl
    · cases hs; exact Keeps.closed hsub ho hch rfl rfl
    · cases hs; exact Keeps.closed hsub ho hch rfl rfl
    · exact release_keeps hs hsub ho hch rfl rfl
  · next hb =>
    obtain ⟨ho, hch, hr⟩ := hc.busyOpen (by rw [hb]; intro h; cases h)
    have ho := (hc.noChan hch).2.2.2
    split at hs
    · exact release_keeps hs (fun _ _ h => h) ho hch rfl rfl
    · exact schedule_keeps hs (fun _ _ h => h) ho hch rfl rfl
  · cases hs; exact Keeps.same rfl rfl rfl (fun _ h => h) rfl rfl

theorem complete_keeps {c : Conn} {u : Nat} {o : Outcome} {r : Request} (hr : c.reqs.get u = some r) :
    Keeps c (c.complete u o) := by
  rw [complete_eq hr]
  exact ⟨fun v s hs => .inl ⟨s, get_del_sub hs, s.same_refl⟩, fun v hv => ⟨hv, rfl⟩,
    .inr (.inr ⟨rfl, fun v hv => .inl ⟨hv, fun x => x⟩⟩), Nat.le_refl _, Nat.le_refl _⟩

theorem Keeps.step {c c' : Conn} {e : Event} (hc : Ctl c) (hh : Held c) (he : Enabled c e = true)
    (hs : step c e = .ok c') (hn : ∀ k result, e ≠ .run k result) : Keeps c c' := by
  cases e with
  | create kind size => exact create_keeps hs
  | connect clean =>
    cases hs
    unfold Conn.connect
    split
    · exact Keeps.same rfl rfl rfl (fun _ h => h) rfl rfl
    · next hd =>
      refine Keeps.same rfl rfl rfl (fun u hu => ?_) rfl rfl
      cases clean
      · simp only [Conn.live, Busy.todo, Bool.false_eq_true, if_false, List.append_nil] at hu ⊢
        exact List.mem_append_left _ hu
      · simp only [Conn.live, Busy.todo, if_true, List.nil_append, List.mem_append] at hu ⊢
        rcases hu with (h | h) | h
        · exact .inl (.inl (.inr h))
        · exact .inl (.inr h)
        · exact .inl (.inl (.inl h))
  | launch ok =>
    cases hs
    have hb : c.busy = .launching := by simpa [Enabled] using he
    cases ok
    · exact Keeps.same rfl rfl rfl (fun u h => by simpa [Conn.launch, Conn.live, hb, Busy.todo] using h) rfl rfl
    · exact Keeps.same rfl rfl rfl (fun u h => by simpa [Conn.launch, Conn.live, hb, Busy.todo] using h) rfl rfl
  | advance => exact advance_keeps hc hs
  | disconnect =>
    cases hs
    unfold Conn.disconnect
    split
    · exact Keeps.same rfl rfl rfl (fun _ h => h) rfl rfl
    · exact Keeps.same rfl rfl rfl (fun _ h => h) rfl rfl
  | acquire => cases hs; exact Keeps.same rfl rfl rfl (fun _ h => h) rfl rfl
  | release =>
    rcases release_cases hs with ⟨rfl, _⟩ | ⟨rfl, _, _, hst⟩
    · exact Keeps.same rfl rfl rfl (fun _ h => h) rfl rfl
    · have hch := (hc.off hst).2.2.1
      exact Keeps.closed (fun u r h => delAll_sub _ _ h) (hc.noChan hch).2.2.2 hch rfl rfl
  | setup r =>
    simp only [Enabled, decide_eq_true_eq] at he
    cases hs
    have hnd : c.state ≠ .disconnected := by
      intro h
      have := (hc.off h).2.1
      rw [he.2] at this; cases this
    have hch : c.chan = none := by
      rcases hc.driver hnd he.1 with ⟨_, e, _⟩ | ⟨e, _⟩ | ⟨_, e, _⟩
      · exact e
      · rw [he.2] at e; cases e
      · exact e
    have ho := (hc.noChan hch).2.2.2
    have key : ∀ f : Conn, f.reqs = c.reqs → f.ongoing = c.ongoing → f.chan = some c.nextChan →
        f.nextChan = c.nextChan + 1 → f.nextUid = c.nextUid → Keeps c f := by
      intro f h1 h2 h3 h4 h5
      exact ⟨fun u r h => .inl ⟨r, h1 ▸ h, r.same_refl⟩, fun u hu => by (rw [h2, ho] at hu; cases hu), .inr (.inl h3),
        by omega, by omega⟩
    cases r with
    | failed => exact Keeps.closed (fun _ _ h => h) rfl rfl rfl rfl
    | refused => exact key _ rfl rfl rfl rfl rfl
    | unsent =>
      simp only [Conn.setup]
      split
      · exact key _ rfl rfl rfl rfl rfl
      · exact key _ rfl rfl rfl rfl rfl
    | opened =>
      simp only [Conn.setup]
      split
      · exact key _ rfl rfl rfl rfl rfl
      · exact key _ rfl rfl rfl rfl rfl
  | packet p =>
    simp only [Enabled, decide_eq_true_eq] at he
    simp only [Client311.step] at hs
    split at hs
    · cases hs
    · exact receive_keeps hh he.1 hs
  | ping => exact create_keeps hs
  | run k result => exact absurd rfl (hn k result)
  | cancel k =>
    simp only [Client311.step] at hs
    split at hs
    · cases hs; exact Keeps.same rfl rfl rfl (fun _ h => h) rfl rfl
    · next uid chan hk =>
      cases hs
      have hp := live_task hk
      have hback : ∀ u ∈ ({ c with tasks := c.tasks.eraseIdx k } : Conn).live, u ∈ c.live :=
        fun u hu => hp.mem_iff.2 (List.mem_cons_of_mem _ hu)
      unfold Conn.cancelled
      split
      · exact Keeps.same rfl rfl rfl hback rfl rfl
      · next r hr =>
        have hr : c.reqs.get uid = some r := hr
        split
        · rw [change_eq (c := { c with tasks := c.tasks.eraseIdx k }) hr]
          refine ⟨fun v s hs => .inl ?_, fun v hv => ⟨hv, rfl⟩, .inr (.inr ⟨rfl, fun v hv => .inl ⟨?_, fun x => x⟩⟩),
            Nat.le_refl _, Nat.le_refl _⟩
          · simp only at hs
            split at hs
            · exact ⟨s, hs, s.same_refl⟩
            · rw [AMap.get_set] at hs
              split at hs
              · next e => cases hs; rw [e]; exact ⟨r, hr, rfl, rfl, rfl⟩
              · exact ⟨s, hs, s.same_refl⟩
          · rw [hp.mem_iff, List.mem_cons]
            simp only [Conn.live, List.mem_append, List.mem_singleton] at hv ⊢
            rcases hv with (((h | h) | h) | h) | h
            · exact .inr (.inl (.inl (.inl h)))
            · exact .inl h
            · exact .inr (.inl (.inl (.inr h)))
            · exact .inr (.inl (.inr h))
            · exact .inr (.inr h)
        · have := complete_keeps (c := { c with tasks := c.tasks.eraseIdx k }) (o := .notConnected) hr
          refine ⟨this.req, this.on, ?_, this.nchan, this.nuid⟩
          rcases this.back with h | h | ⟨h, h2⟩
          · exact .inl h
          · exact .inr (.inl h)
          · refine .inr (.inr ⟨h, fun u hu => ?_⟩)
            rcases h2 u hu with ⟨h3, h4⟩ | h3
            · exact .inl ⟨hback u h3, h4⟩
            · exact .inr h3
  | timeout uid =>
    simp only [Enabled, decide_eq_true_eq] at he
    simp only [Client311.step] at hs
    split at hs
    · cases hs
    · exact finish_keeps hh he.1 hs
  | attempt ok =>
    simp only [Enabled, decide_eq_true_eq] at he
    have hst := hc.scheduled he.2
    have hnd : c.state ≠ .disconnected := by rcases hst with h | h <;> rw [h] <;> intro h <;> cases h
    have hch : c.chan = none := by
      rcases hc.driver hnd he.1 with ⟨_, _, e⟩ | ⟨_, _, e⟩ | ⟨_, e, _⟩
      · exact absurd he.2 e
      · exact absurd he.2 e
      · exact e
    have ho := (hc.noChan hch).2.2.2
    simp only [Client311.step, Conn.attempt] at hs
    split at hs
    · split at hs
      · cases hs; exact Keeps.same rfl rfl rfl (fun _ h => h) rfl rfl
      · exact release_keeps hs (fun _ _ h => h) ho hch rfl rfl
    · split at hs <;> cases hs <;> exact Keeps.same rfl rfl rfl (fun _ h => h) rfl rfl
  | disconnectTask => cases hs; exact Keeps.same rfl rfl rfl (fun _ h => h) rfl rfl
  | close => cases hs; exact Keeps.same rfl rfl rfl (fun _ h => h) rfl rfl
  | shutdown => cases hs; exact Keeps.closed (fun _ _ h => h) rfl rfl rfl rfl

/-- An outgoing task is run. -/
theorem Sends.run {c c' : Conn} (h : Sends c) (hc : Ctl c) (hh : Held c) {k : Nat} {result : Sending}
    (he : Enabled c (.run k result) = true) (hs : step c (.run k result) = .ok c') : Sends c' := by
  simp only [Client311.step] at hs
  cases hk : c.tasks[k]? with
  | none =>
    rw [hk] at hs
    cases hs; exact h
  | some t =>
    obtain ⟨uid, chan⟩ := t
    rw [hk] at hs
    simp only [Except.ok.injEq] at hs
    subst hs
    simp only [Enabled, hk, Bool.and_eq_true, decide_eq_true_eq] at he
    obtain ⟨hb, hch, hmay⟩ := he
    have hch : c.chan = some chan := hch.symm
    have hst := hh.idleStore hb
    have hp := live_task hk
    obtain ⟨r, hr⟩ := hst.live_isSome (hp.mem_iff.2 (List.mem_cons_self ..))
    have hlt := hst.live_below (hp.mem_iff.2 (List.mem_cons_self ..))
    have hnd : c.live.Nodup := by have := hst.nodup; rwa [List.append_nil] at this
    have hnl := (List.nodup_cons.1 (hp.nodup_iff.1 hnd)).1
    have hno : uid ∉ c.ongoing := fun ho => hnl (by simp [Conn.live, ho])
    have hback : ∀ u ∈ ({ c with tasks := c.tasks.eraseIdx k } : Conn).live, u ∈ c.live :=
      fun u hu => hp.mem_iff.2 (List.mem_cons_of_mem _ hu)
    have h0 : Sends ({ c with tasks := c.tasks.eraseIdx k } : Conn) :=
      h.keeps (Keeps.same rfl rfl rfl hback rfl rfl) (Calm.same rfl)
    -- after it has been sent
    have hsend : ∀ d, SentOn (c.log ++ [.sent uid chan d]) = fun u n => SentOn c.log u n ∨ (u = uid ∧ n = chan) := by
      intro d
      funext u n
      rw [sentOn_append, sentOn_cons (by simp)]
    unfold Conn.send
    have hr' : ({ c with tasks := c.tasks.eraseIdx k } : Conn).reqs.get uid = some r := hr
    rw [hr']
    simp only
    split
    · exact h0.keeps (complete_keeps hr') (Calm.one complete_log rfl)
    · split
      · exact h0.keeps (complete_keeps hr') (Calm.one complete_log rfl)
      · rw [complete_eq (c := ({ c with tasks := c.tasks.eraseIdx k } : Conn).tell (.sent uid chan r.initiated)) (r := r) hr]
        simp only [Conn.tell]
        have hs2 : ∀ u n, SentOn (c.log ++ [.sent uid chan r.initiated] ++ [.completed uid .success]) u n ↔
            SentOn c.log u n ∨ (u = uid ∧ n = chan) := by
          intro u n
          rw [sentOn_calm (l := [.completed uid .success]) (by simp [isSend]), hsend]
        refine ⟨?_, ?_, ?_, ?_, ?_⟩
        · intro u hu
          obtain ⟨n, h1, h2⟩ := h.on u hu
          exact ⟨n, h1, (hs2 u n).2 (.inl h2)⟩
        · intro u n hsn hl hcn
          rcases (hs2 u n).1 hsn with h1 | ⟨h1, _⟩
          · exact h.back u n h1 (hback u hl) hcn
          · subst h1; exact absurd hl hnl
        · intro u n hsn
          rcases (hs2 u n).1 hsn with h1 | ⟨_, h1⟩
          · exact h.chans u n h1
          · rw [h1]; exact hc.chans _ hch
        · intro u s hsu
          simp only [hs2]
          have hne : u ≠ uid := by
            rintro rfl
            rw [AMap.get_del, if_pos rfl] at hsu; cases hsu
          rw [h.begun u s (get_del_sub hsu)]
          simp [hne]
        · intro u n hsn
          rcases (hs2 u n).1 hsn with h1 | ⟨h1, _⟩
          · exact h.below u n h1
          · rw [h1]; exact hlt
    · next timer topics =>
      generalize (if r.kind.isSubscribe = true then topics else r.topics) = tp
      simp only [Conn.tell]
      rw [change_eq (AMap.get_set_same ..)]
      refine ⟨?_, ?_, ?_, ?_, ?_⟩
      · intro u hu
        simp only [hsend]
        rcases List.mem_append.1 hu with hu | hu
        · obtain ⟨n, h1, h2⟩ := h.on u hu
          exact ⟨n, h1, .inl h2⟩
        · exact ⟨chan, hch, .inr ⟨by simpa using hu, rfl⟩⟩
      · intro u n hsn hl hcn
        simp only [hsend] at hsn
        refine List.mem_append.2 ?_
        rcases hsn with h1 | ⟨h1, _⟩
        · by_cases e : u = uid
          · exact .inr (by simp [e])
          · refine .inl (h.back u n h1 ?_ hcn)
            refine hback u ?_
            simp only [Conn.live, List.mem_append, List.mem_singleton] at hl ⊢
            rcases hl with ((hl | hl | hl) | hl) | hl
            · exact .inl (.inl (.inl hl))
            · exact .inl (.inl (.inr hl))
            · exact absurd hl e
            · exact .inl (.inr hl)
            · exact .inr hl
        · exact .inr (by simp [h1])
      · intro u n hsn
        simp only [hsend] at hsn
        rcases hsn with h1 | ⟨_, h1⟩
        · exact h.chans u n h1
        · rw [h1]; exact hc.chans _ hch
      · intro u s hsu
        simp only [hsend]
        by_cases e : u = uid
        · subst e
          have : s.initiated = true := by
            simp only at hsu
            split at hsu
            · rw [AMap.get_set_same] at hsu; cases hsu; rfl
            · rw [AMap.get_set_same] at hsu; cases hsu; rfl
          rw [this]
          simp only [true_and, true_iff]
          exact ⟨chan, .inr rfl⟩
        · have hsu : c.reqs.get u = some s := by
            simp only at hsu
            split at hsu
            · rw [AMap.get_set, if_neg e] at hsu; exact hsu
            · rw [AMap.get_set, if_neg e, AMap.get_set, if_neg e] at hsu; exact hsu
          rw [h.begun u s hsu]
          simp [e]
      · intro u n hsn
        simp only [hsend] at hsn
        rcases hsn with h1 | ⟨h1, _⟩
        · exact h.below u n h1
        · rw [h1]; exact hlt

theorem Sends.step {c c' : Conn} {e : Event} (h : Sends c) (hc : Ctl c) (hh : Held c) (he : Enabled c e = true)
    (hs : step c e = .ok c') : Sends c' := by
  by_cases hn : ∀ k result, e ≠ .run k result
  · refine h.keeps (Keeps.step hc hh he hs hn) ?_
    rcases step_log hs with h | ⟨k, result, _, _, _, _, e, _⟩
    · exact h
    · exact absurd e (hn k result)
  · cases e with
    | run k result => exact h.run hc hh he hs
    | _ => exact absurd (by intro k r h; cases h) hn

/-- A request to subscribe to `m` topics keeps its topics. -/
def Topics (c : Conn) : Prop := ∀ u r m, c.reqs.get u = some r → r.kind = .subscribe m → r.topics = m

theorem Topics.step {c c' : Conn} {e : Event} (h : Topics c) (hc : Ctl c) (hh : Held c) (he : Enabled c e = true)
    (hs : step c e = .ok c') : Topics c' := by
  by_cases hn : ∀ k result, e ≠ .run k result
  · intro u r' m hr hk
    rcases (Keeps.step hc hh he hs hn).req u r' hr with ⟨r, h0, _, h1, h2⟩ | ⟨_, _, h1⟩
    · rw [← h2]; exact h u r m h0 (h1.trans hk)
    · rw [h1, hk]; rfl
  · cases e with
    | run k result =>
      simp only [Client311.step] at hs
      cases hk : c.tasks[k]? with
      | none => rw [hk] at hs; cases hs; exact h
      | some t =>
        obtain ⟨uid, chan⟩ := t
        rw [hk] at hs
        simp only [Except.ok.injEq] at hs
        subst hs
        simp only [Enabled, hk, Bool.and_eq_true, decide_eq_true_eq] at he
        obtain ⟨hb, hch, hmay⟩ := he
        unfold Conn.send
        cases hr : c.reqs.get uid with
        | none => simp only; exact h
        | some r =>
          rw [hr] at hmay
          simp only
          split
          · rw [complete_eq (c := { c with tasks := c.tasks.eraseIdx k }) hr]
            exact fun u r m hu => h u r m (get_del_sub hu)
          · split
            · rw [complete_eq (c := { c with tasks := c.tasks.eraseIdx k }) hr]
              exact fun u r m hu => h u r m (get_del_sub hu)
            · rw [complete_eq (c := ({ c with tasks := c.tasks.eraseIdx k } : Conn).tell (.sent uid chan r.initiated)) hr]
              exact fun u r m hu => h u r m (get_del_sub hu)
          · next timer topics =>
            have hz : ∀ m, r.kind = .subscribe m → (if r.kind.isSubscribe = true then topics else r.topics) = m := by
              intro m hm
              simp only at hmay; rw [hm] at hmay ⊢
              simpa [Kind.mayReturn, Kind.isSubscribe] using hmay
            revert hz
            generalize (if r.kind.isSubscribe = true then topics else r.topics) = tp
            intro hz
            simp only [Conn.tell]
            rw [change_eq (AMap.get_set_same ..)]
            intro u s m hu hm
            by_cases e : u = uid
            · subst e
              simp only at hu
              split at hu
              · rw [AMap.get_set_same] at hu; cases hu; exact hz m hm
              · rw [AMap.get_set_same] at hu; cases hu; exact hz m hm
            · refine h u s m ?_ hm
              simp only at hu
              split at hu
              · rw [AMap.get_set, if_neg e] at hu; exact hu
              · rw [AMap.get_set, if_neg e, AMap.get_set, if_neg e] at hu; exact hu
    | _ => exact absurd (by intro k r h; cases h) hn

theorem Reachable.topics {allowed : Conn → Event → Prop} {c : Conn} (h : Reachable allowed c) : Topics c := by
  induction h with
  | init => intro u r m h; simp at h
  | step h0 _ he _ hs ih => exact ih.step h0.inv.1 h0.inv.2 he hs

theorem Reachable.sends {allowed : Conn → Event → Prop} {c : Conn} (h : Reachable allowed c) : Sends c := by
  induction h with
  | init => exact Sends.init
  | step h0 _ he _ hs ih => exact ih.step h0.inv.1 h0.inv.2 he hs

/-- A request is sent with the flag DUP if and only if it has been sent before. -/
theorem Reachable.dup {allowed : Conn → Event → Prop} {c : Conn} (h : Reachable allowed c) {pre post : List Trace}
    {u n : Nat} {d : Bool} (e : c.log = pre ++ .sent u n d :: post) : d = true ↔ ∃ m, SentOn pre u m := by
  induction h generalizing post with
  | init => simp at e
  | @step c0 c1 ev h0 hd he _ hs ih =>
    have key : ∀ l : List Trace, (∀ t ∈ l, isSend t = false) → ∀ log : List Trace,
        log ++ l = pre ++ .sent u n d :: post → ∃ post', log = pre ++ .sent u n d :: post' := by
      intro l hl log e
      rcases List.append_eq_append_iff.1 e with ⟨a, h1, h2⟩ | ⟨a, h1, h2⟩
      · exfalso
        have : Trace.sent u n d ∈ l := by rw [h2]; simp
        have := hl _ this
        simp [isSend] at this
      · cases a with
        | nil =>
          exfalso
          have : Trace.sent u n d ∈ l := by rw [← show _ = l from h2]; simp
          have := hl _ this
          simp [isSend] at this
        | cons t a =>
          simp only [List.cons_append, List.cons.injEq] at h2
          exact ⟨a, by rw [h1, h2.1]⟩
    rcases step_log hs with ⟨l, e1, hl⟩ | ⟨k, result, uid, chan, r, l, _, hk, hr, e1, hl⟩
    · rw [e1] at e
      obtain ⟨post', e2⟩ := key l hl _ e
      exact ih e2
    · rw [e1, show c0.log ++ Trace.sent uid chan r.initiated :: l = (c0.log ++ [.sent uid chan r.initiated]) ++ l by simp] at e
      obtain ⟨post', e2⟩ := key l hl _ e
      rcases List.append_eq_append_iff.1 e2 with ⟨a, h1, h2⟩ | ⟨a, h1, h2⟩
      · cases a with
        | nil =>
          simp only [List.nil_append, List.cons.injEq, Trace.sent.injEq] at h2
          obtain ⟨⟨rfl, rfl, rfl⟩, _⟩ := h2
          have h1 : pre = c0.log := by simpa using h1
          rw [h1]
          exact h0.sends.begun _ _ hr
        | cons t a =>
          simp at h2
      · cases a with
        | nil =>
          simp only [List.nil_append, List.cons.injEq, Trace.sent.injEq] at h2
          obtain ⟨⟨rfl, rfl, rfl⟩, _⟩ := h2
          have h1 : pre = c0.log := by simpa using h1.symm
          rw [h1]
          exact h0.sends.begun _ _ hr
        | cons t a =>
          simp only [List.cons_append, List.cons.injEq] at h2
          exact ih (post := a) (by rw [h1, h2.1])

end Mqtt.Client311
