import Verif.Lemmas.Client311Link

/-! The order in which requests of the 3.1.1 connection are sent. -/
namespace Mqtt.Client311

/-- Outgoing tasks are run in the order they were scheduled, and not after one has been cancelled; none is cancelled
while another request waits for an acknowledgement; they are cancelled before the channel is shut down; the server sends
one CONNACK. -/
def InOrder (c : Conn) : Event → Prop
  | .run k _ => k = 0 ∧ c.pending = []
  | .cancel k => k = 0 ∧ c.ongoing = []
  | .shutdown => c.tasks = []
  | .packet (.connack _) => c.state ≠ .connected
  | _ => True

structure Line (c : Conn) : Prop where
  sorted : (c.pending ++ c.ongoing ++ c.tasks.map (·.1)).Pairwise (· < ·)
  closed : c.chan = none → c.tasks = []
  early : c.state ≠ .connected → c.state ≠ .disconnecting →
    c.tasks = [] ∧ c.ongoing = [] ∧ ∀ n u, c.chan = some n → ¬ SentOn c.log u n
  front : ∀ u n, c.chan = some n → SentOn c.log u n → ∀ t ∈ c.tasks, u < t.1

theorem Line.init : Line {} where
  sorted := by simp
  closed := by simp
  early := by simp
  front := by simp

theorem Calm.sentOn {c f : Conn} (h : Calm c f) {u n : Nat} : SentOn f.log u n ↔ SentOn c.log u n := by
  obtain ⟨l, e, hl⟩ := h
  rw [e]
  exact sentOn_calm hl

/-- Requests only leave the lists. -/
theorem Line.sub {c f : Conn} (h : Line c) (h1 : f.pending.Sublist c.pending) (h2 : f.ongoing.Sublist c.ongoing)
    (h3 : f.tasks.Sublist c.tasks) (h4 : f.chan = c.chan) (h5 : f.state = c.state) (h6 : Calm c f) : Line f where
  sorted := h.sorted.sublist ((h1.append h2).append (h3.map _))
  closed := fun e => by
    have := h.closed (h4 ▸ e)
    rw [this] at h3
    exact List.sublist_nil.1 h3
  early := fun e1 e2 => by
    obtain ⟨a, b, d⟩ := h.early (h5 ▸ e1) (h5 ▸ e2)
    rw [a] at h3
    rw [b] at h2
    exact ⟨List.sublist_nil.1 h3, List.sublist_nil.1 h2, fun n u hn => by rw [h6.sentOn]; exact d n u (h4 ▸ hn)⟩
  front := fun u n hn hs t ht => h.front u n (h4 ▸ hn) (h6.sentOn.1 hs) t (h3.subset ht)

/-- No channel and no tasks. -/
theorem Line.off {f : Conn} (h : f.pending.Pairwise (· < ·)) (h2 : f.ongoing = []) (h3 : f.tasks = [])
    (h4 : f.chan = none) : Line f where
  sorted := by simpa [h2, h3] using h
  closed := fun _ => h3
  early := fun _ _ => ⟨h3, h2, fun n u hn => by rw [h4] at hn; cases hn⟩
  front := fun u n hn => by rw [h4] at hn; cases hn

theorem Line.pending {c : Conn} (h : Line c) : c.pending.Pairwise (· < ·) :=
  h.sorted.sublist ((List.sublist_append_left _ _).trans (List.sublist_append_left _ _))

theorem sorted_snoc {l : List Nat} {n : Nat} (h : l.Pairwise (· < ·)) (hn : ∀ u ∈ l, u < n) :
    (l ++ [n]).Pairwise (· < ·) := by
  rw [List.pairwise_append]
  refine ⟨h, by simp, ?_⟩
  intro a ha b hb
  rw [List.mem_singleton.1 hb]
  exact hn a ha

theorem Line.create {c c' : Conn} (h : Line c) (hh : Held c) (hn : Sends c) {kind : Kind} {size : Nat}
    (hs : c.create kind size = .ok c') : Line c' := by
  have hlt : ∀ u ∈ c.live, u < c.nextUid := by
    obtain ⟨⟨done, _, hst⟩, _⟩ := hh
    exact fun u hu => hst.live_below hu
  have hcalm := create_calm hs
  rcases create_cases hs with ⟨e, _⟩ | ⟨e, _⟩ | ⟨r, hsr, ⟨_, e⟩ | ⟨h2, hnd, _, ⟨hst, e⟩ | ⟨hc, chan, hsl, hch, e⟩ | ⟨_, _, e⟩⟩⟩
  · cases e
    exact h.sub (List.Sublist.refl _) (List.Sublist.refl _) (List.Sublist.refl _) rfl rfl hcalm
  · cases e
    exact h.sub (List.Sublist.refl _) (List.Sublist.refl _) (List.Sublist.refl _) rfl rfl hcalm
  · cases e
    exact h.sub (List.Sublist.refl _) (List.Sublist.refl _) (List.Sublist.refl _) rfl rfl hcalm
  · cases e
    obtain ⟨e1, e2, e3⟩ := h.early hst hnd
    refine ⟨?_, fun _ => e1, fun _ _ => ⟨e1, e2, ?_⟩, ?_⟩
    · have : (c.pending ++ [c.nextUid] ++ c.ongoing ++ c.tasks.map (·.1)).Pairwise (· < ·) := by
        rw [e1, e2]
        simp only [List.map_nil, List.append_nil]
        exact sorted_snoc h.pending fun u hu => hlt u (by simp [Conn.live, hu])
      exact this
    · intro n u hcn
      rw [hcalm.sentOn]
      exact e3 n u hcn
    · intro u n hcn hsn t ht
      have ht : t ∈ c.tasks := ht
      rw [e1] at ht; cases ht
  · cases e
    refine ⟨?_, fun e => ?_, fun e => absurd hc e, ?_⟩
    · have : (c.pending ++ c.ongoing ++ (c.tasks ++ [(c.nextUid, chan)]).map (·.1)).Pairwise (· < ·) := by
        rw [List.map_append, ← List.append_assoc]
        refine sorted_snoc h.sorted fun u hu => hlt u ?_
        simp only [Conn.live]
        exact List.mem_append_left _ hu
      exact this
    · have e : c.chan = none := e
      rw [hch] at e; cases e
    · intro u n hcn hsn t ht
      rw [hcalm.sentOn] at hsn
      rcases List.mem_append.1 ht with ht | ht
      · exact h.front u n hcn hsn t ht
      · rw [List.mem_singleton.1 ht]
        exact hn.below u n hsn
  · cases e

theorem Line.finish {c c' : Conn} (h : Line c) (hh : Held c) (hb : c.busy = .idle) {id : Nat} {o : Outcome}
    (hs : c.finish id o = .ok c') : Line c' := by
  have hcalm := finish_calm hs
  rcases finish_cases hs with ⟨_, e⟩ | ⟨u, ht, ⟨hm, e⟩ | ⟨_, _, e⟩⟩
  · cases e; exact h
  · cases e
    obtain ⟨r, hr, _⟩ := hh.place hb ht
    rw [complete_eq hr] at hcalm ⊢
    exact h.sub List.filter_sublist List.filter_sublist (List.Sublist.refl _) rfl rfl hcalm
  · cases e

theorem Line.suback {c c' : Conn} (h : Line c) (hh : Held c) (hb : c.busy = .idle) {chan id codes : Nat}
    (hs : c.suback chan id codes = .ok c') : Line c' := by
  have hcalm := suback_calm hs
  unfold Conn.suback at hs
  split at hs
  · cases hs; exact h
  · split at hs
    · cases hs
    · split at hs
      · cases hs
      · split at hs
        · cases hs
          exact h.sub (List.Sublist.refl _) (List.Sublist.refl _) (List.Sublist.refl _) rfl rfl hcalm
        · exact h.finish hh hb hs

theorem Line.connack {c : Conn} (h : Line c) {chan : Nat} {acc : Bool} (hch : c.chan = some chan)
    (ho : c.state ≠ .connected) : Line (c.connack chan acc) := by
  have hcalm : Calm c (c.connack chan acc) := receive_calm (p := .connack acc) rfl
  unfold Conn.connack at hcalm ⊢
  split
  · next e =>
    rw [if_pos e] at hcalm
    exact h.sub (List.Sublist.refl _) (List.Sublist.refl _) (List.Sublist.refl _) rfl rfl hcalm
  · next e =>
    rw [if_neg e] at hcalm
    have hnd : c.state ≠ .disconnecting := fun h => e (.inl h)
    obtain ⟨e1, e2, e3⟩ := h.early ho hnd
    split
    · next ea =>
      rw [if_pos ea] at hcalm
      have key : ∀ f : Conn, f.state = .connected → f.pending = [] → f.ongoing = c.ongoing →
          f.tasks = c.tasks ++ c.pending.map (·, chan) → f.chan = c.chan → Calm c f → Line f := by
        intro f h1 h2 h3 h4 h5 h6
        refine ⟨?_, fun e => ?_, fun e => absurd h1 e, ?_⟩
        · rw [h2, h3, h4, e1, e2]
          simp only [List.nil_append, List.map_map]
          rw [show ((fun x : Nat × Nat => x.1) ∘ fun x => (x, chan)) = id from rfl, List.map_id]
          exact h.pending
        · rw [h5, hch] at e; cases e
        · intro u n hn hs
          rw [h6.sentOn] at hs
          exact absurd hs (e3 n u (h5 ▸ hn))
      simp only at hcalm ⊢
      split
      · next er =>
        rw [if_pos er] at hcalm
        exact key _ rfl rfl rfl rfl rfl hcalm
      · next er =>
        rw [if_neg er] at hcalm
        exact key _ rfl rfl rfl rfl rfl hcalm
    · next ea =>
      rw [if_neg ea] at hcalm
      exact h.sub (List.Sublist.refl _) (List.Sublist.refl _) (List.Sublist.refl _) rfl rfl hcalm

theorem Line.tell {c : Conn} (h : Line c) {t : Trace} (ht : isSend t = false) : Line (c.tell t) :=
  h.sub (List.Sublist.refl _) (List.Sublist.refl _) (List.Sublist.refl _) rfl rfl (Calm.one rfl ht)

theorem Line.receive {c c' : Conn} (h : Line c) (hh : Held c) (hb : c.busy = .idle) {chan : Nat} {p : Packet}
    (hch : c.chan = some chan) (ho : InOrder c (.packet p)) (hs : c.receive chan p = .ok c') : Line c' := by
  have hrej : Line (c.reject chan) :=
    h.sub (List.Sublist.refl _) (List.Sublist.refl _) (List.Sublist.refl _) rfl rfl (Calm.one rfl rfl)
  unfold Conn.receive at hs
  split at hs
  · cases hs; exact h.tell rfl
  · cases hs; exact h.connack hch ho
  · split at hs
    · cases hs; exact hrej
    · split at hs
      · cases hs
        split
        · exact (h.tell rfl).tell rfl
        · exact h.tell rfl
      · exact (h.tell rfl).finish (hh.tell rfl) hb hs
      · exact (h.tell rfl).finish (hh.tell rfl) hb hs
      · exact (h.tell rfl).finish (hh.tell rfl) hb hs
      · exact (h.tell rfl).suback (hh.tell rfl) hb hs
      · cases hs; exact (h.tell rfl).tell rfl
      · cases hs; exact (h.tell rfl).tell rfl
      · cases hs; exact hrej

theorem Line.released {c c' : Conn} (hs : c.release = .ok c') (h : c.pending.Pairwise (· < ·)) (h2 : c.ongoing = [])
    (h3 : c.tasks = []) (h4 : c.chan = none) : Line c' := by
  rcases release_cases hs with ⟨rfl, _⟩ | ⟨rfl, _⟩
  · exact Line.off h h2 h3 h4
  · exact Line.off List.Pairwise.nil h2 h3 h4

theorem Line.schedule {c c' : Conn} (hs : c.schedule = .ok c') (h : c.pending.Pairwise (· < ·)) (h2 : c.ongoing = [])
    (h3 : c.tasks = []) (h4 : c.chan = none) : Line c' := by
  unfold Conn.schedule at hs
  split at hs
  · cases hs
  · cases hs; exact Line.off h h2 h3 h4

theorem Line.advance {c c' : Conn} (h : Line c) (hc : Ctl c) (hs : c.advance = .ok c') : Line c' := by
  have hp := h.pending
  unfold Conn.advance at hs
  split at hs
  · next all uid todo next hb =>
    obtain ⟨_, hch, _⟩ := hc.busyOpen (by rw [hb]; intro h; cases h)
    cases hs
    exact Line.off hp (hc.noChan hch).2.2.2 (h.closed hch) hch
  · next all next hb =>
    obtain ⟨_, hch, _⟩ := hc.busyOpen (by rw [hb]; intro h; cases h)
    obtain ⟨rq, tb, tm, e, htm⟩ := removeAll_eq all c
    simp only at hs
    rw [e] at hs
    have ho := (hc.noChan hch).2.2.2
    have ht := h.closed hch
    split at hs
    · cases hs; exact Line.off hp ho ht hch
    · exact Line.schedule hs hp ho ht hch
    · cases hs; exact Line.off hp ho ht hch
    · cases hs; exact Line.off hp ho ht hch
    · exact Line.released hs hp ho ht hch
  · next hb =>
    obtain ⟨_, hch, _⟩ := hc.busyOpen (by rw [hb]; intro h; cases h)
    have ho := (hc.noChan hch).2.2.2
    have ht := h.closed hch
    split at hs
    · exact Line.released hs hp ho ht hch
    · exact Line.schedule hs hp ho ht hch
  · cases hs; exact h

/-- The first task is run. -/
theorem Line.run {c : Conn} (h : Line c) (hh : Held c) (hb : c.busy = .idle) {u chan : Nat} {tl : List (Nat × Nat)}
    {result : Sending} (hch : c.chan = some chan) (hk : c.tasks = (u, chan) :: tl) :
    Line (({ c with tasks := tl } : Conn).send u chan result) := by
  have hst := hh.idleStore hb
  have hl : u ∈ c.live := by simp [Conn.live, hk]
  obtain ⟨r, hr⟩ := hst.live_isSome hl
  have hr' : ({ c with tasks := tl } : Conn).reqs.get u = some r := hr
  have hgt : ∀ t ∈ tl, u < t.1 := by
    have := h.sorted
    rw [hk, List.map_cons] at this
    have := (List.pairwise_append.1 this).2.1
    intro t ht
    exact (List.pairwise_cons.1 this).1 _ (List.mem_map_of_mem ht)
  have hcon : c.state = .connected ∨ c.state = .disconnecting := by
    by_cases e1 : c.state = .connected
    · exact .inl e1
    · by_cases e2 : c.state = .disconnecting
      · exact .inr e2
      · have := (h.early e1 e2).1
        rw [hk] at this; cases this
  have key : ∀ f : Conn, f.state = c.state → f.pending = c.pending → (f.ongoing = c.ongoing ∨ f.ongoing = c.ongoing ++ [u]) →
      f.tasks = tl → f.chan = c.chan → (∀ v n, SentOn f.log v n → SentOn c.log v n ∨ v = u) → Line f := by
    intro f h1 h2 h3 h4 h5 h6
    refine ⟨?_, fun e => ?_, ?_, ?_⟩
    · rw [h2, h4]
      have hs := h.sorted
      rw [hk, List.map_cons] at hs
      rcases h3 with h3 | h3
      · rw [h3]
        exact hs.sublist ((List.Sublist.refl _).append (List.sublist_cons_self _ _))
      · rw [h3]
        simpa [List.append_assoc] using hs
    · rw [h5, hch] at e; cases e
    · intro e1 e2
      rw [h1] at e1 e2
      exact (hcon.elim e1 e2).elim
    · intro v n hn hs t ht
      rw [h4] at ht
      rcases h6 v n hs with hs | rfl
      · exact h.front v n (h5 ▸ hn) hs t (by rw [hk]; exact List.mem_cons_of_mem _ ht)
      · exact hgt t ht
  unfold Conn.send
  rw [hr']
  simp only
  split
  · rw [complete_eq hr']
    refine key _ rfl rfl (.inl rfl) rfl rfl ?_
    intro v n hs
    exact .inl ((sentOn_calm (l := [.completed u .failed]) (by simp [isSend])).1 hs)
  · split
    · rw [complete_eq hr']
      refine key _ rfl rfl (.inl rfl) rfl rfl ?_
      intro v n hs
      exact .inl ((sentOn_calm (l := [.completed u .success]) (by simp [isSend])).1 hs)
    · rw [complete_eq (c := ({ c with tasks := tl } : Conn).tell (.sent u chan r.initiated)) (r := r) hr]
      refine key _ rfl rfl (.inl rfl) rfl rfl ?_
      intro v n hs
      have hs := (sentOn_calm (l := [.completed u .success]) (by simp [isSend])).1 hs
      rcases sentOn_append.1 hs with hs | hs
      · exact .inl hs
      · exact .inr ((sentOn_cons (by simp)).1 hs).1
  · next timer topics =>
    simp only [Conn.tell]
    rw [change_eq (AMap.get_set_same ..)]
    refine key _ rfl rfl (.inr rfl) rfl rfl ?_
    intro v n hs
    rcases sentOn_append.1 hs with hs | hs
    · exact .inl hs
    · exact .inr ((sentOn_cons (by simp)).1 hs).1

/-- The first task is cancelled. -/
theorem Line.cancel {c : Conn} (h : Line c) (hh : Held c) {u chan : Nat} {tl : List (Nat × Nat)}
    (hk : c.tasks = (u, chan) :: tl) (ho : c.ongoing = []) : Line (({ c with tasks := tl } : Conn).cancelled u) := by
  have hl : u ∈ c.live := by simp [Conn.live, hk]
  have hlr : ∃ r, c.reqs.get u = some r := by
    obtain ⟨⟨done, _, hst⟩, _⟩ := hh
    exact hst.live_isSome hl
  obtain ⟨r, hr⟩ := hlr
  have hr' : ({ c with tasks := tl } : Conn).reqs.get u = some r := hr
  have hsub : tl.Sublist c.tasks := by rw [hk]; exact List.sublist_cons_self _ _
  unfold Conn.cancelled
  rw [hr']
  simp only
  split
  · rw [change_eq hr']
    have hne : c.chan ≠ none := fun e => by have := h.closed e; rw [hk] at this; cases this
    have hnt : c.tasks ≠ [] := by rw [hk]; simp
    refine ⟨?_, fun e => absurd e hne, fun e1 e2 => absurd (h.early e1 e2).1 hnt, ?_⟩
    · have hs := h.sorted
      rw [hk, ho, List.map_cons] at hs
      have : (c.pending ++ [u] ++ c.ongoing ++ tl.map (·.1)).Pairwise (· < ·) := by
        rw [ho]
        simpa [List.append_assoc] using hs
      exact this
    · intro v n hn hs t ht
      exact h.front v n hn hs t (hsub.subset ht)
  · rw [complete_eq hr']
    exact h.sub (List.Sublist.refl _) (List.Sublist.refl _) hsub rfl rfl (Calm.one rfl rfl)

theorem Line.shutdown {c : Conn} (h : Line c) (ht : c.tasks = []) : Line c.shutdown := by
  refine Line.off ?_ rfl ht rfl
  simp only [Conn.shutdown]
  split
  · exact List.Pairwise.nil
  · exact h.sorted.sublist (List.sublist_append_left _ _)

theorem Line.step {c c' : Conn} {e : Event} (h : Line c) (hc : Ctl c) (hh : Held c) (hn : Sends c)
    (he : Enabled c e = true) (ho : InOrder c e) (hs : step c e = .ok c') : Line c' := by
  have same : ∀ f : Conn, f.pending = c.pending → f.ongoing = c.ongoing → f.tasks = c.tasks → f.chan = c.chan →
      f.state = c.state → Calm c f → Line f := by
    intro f h1 h2 h3 h4 h5 h6
    exact h.sub (h1 ▸ List.Sublist.refl _) (h2 ▸ List.Sublist.refl _) (h3 ▸ List.Sublist.refl _) h4 h5 h6
  have hoff : c.state = .disconnected → c.ongoing = [] ∧ c.tasks = [] ∧ c.chan = none := fun e =>
    ⟨(hc.noChan (hc.off e).2.2.1).2.2.2, h.closed (hc.off e).2.2.1, (hc.off e).2.2.1⟩
  cases e with
  | create kind size => exact h.create hh hn hs
  | connect clean =>
    cases hs
    unfold Conn.connect
    split
    · exact h.tell rfl
    · next e =>
      obtain ⟨h1, h2, h3⟩ := hoff (by simpa using e)
      refine Line.off ?_ h1 h2 h3
      cases clean
      · exact h.pending
      · exact List.Pairwise.nil
  | launch ok =>
    cases hs
    have hb : c.busy = .launching := by simpa [Enabled] using he
    obtain ⟨_, hch, _⟩ := hc.busyOpen (by rw [hb]; intro h; cases h)
    cases ok
    · exact Line.off h.pending (hc.noChan hch).2.2.2 (h.closed hch) hch
    · exact Line.off h.pending (hc.noChan hch).2.2.2 (h.closed hch) hch
  | advance => exact h.advance hc hs
  | disconnect =>
    cases hs
    unfold Conn.disconnect
    split
    · exact ⟨h.sorted, h.closed, fun _ e => absurd rfl e, h.front⟩
    · exact h
  | acquire => cases hs; exact same _ rfl rfl rfl rfl rfl (Calm.same rfl)
  | release =>
    rcases release_cases hs with ⟨rfl, _⟩ | ⟨rfl, _, _, hst⟩
    · exact same _ rfl rfl rfl rfl rfl (Calm.same rfl)
    · obtain ⟨h1, h2, h3⟩ := hoff hst
      exact Line.off List.Pairwise.nil h1 h2 h3
  | setup r =>
    simp only [Enabled, decide_eq_true_eq] at he
    cases hs
    have hnd : c.state ≠ .disconnected := by
      intro h
      have := (hc.off h).2.1
      rw [he.2] at this; cases this
    have hch : c.chan = none := by
      rcases hc.driver hnd he.1 with ⟨_, e, _⟩ | ⟨e, _⟩ | ⟨_, e, _⟩
      · exact e
      · rw [he.2] at e; cases e
      · exact e
    have ht := h.closed hch
    have hon := (hc.noChan hch).2.2.2
    have key : ∀ f : Conn, f.pending = c.pending → f.ongoing = c.ongoing → f.tasks = c.tasks →
        f.chan = some c.nextChan → Calm c f → Line f := by
      intro f h1 h2 h3 h4 h5
      have hno : ∀ n u, f.chan = some n → ¬ SentOn f.log u n := by
        intro n u hcn hsn
        rw [h4] at hcn
        cases hcn
        rw [h5.sentOn] at hsn
        exact Nat.lt_irrefl _ (hn.chans u _ hsn)
      refine ⟨by rw [h1, h2, h3]; exact h.sorted, fun _ => h3.trans ht, fun _ _ => ⟨h3.trans ht, h2.trans hon, hno⟩, ?_⟩
      intro u n hcn hsn
      exact absurd hsn (hno n u hcn)
    cases r with
    | failed => exact h.shutdown ht
    | refused => exact key _ rfl rfl rfl rfl (Calm.same rfl)
    | unsent =>
      simp only [Conn.setup]
      split
      · exact key _ rfl rfl rfl rfl (Calm.same rfl)
      · exact key _ rfl rfl rfl rfl (Calm.one rfl rfl)
    | opened =>
      simp only [Conn.setup]
      split
      · exact key _ rfl rfl rfl rfl (Calm.same rfl)
      · exact key _ rfl rfl rfl rfl (Calm.one rfl rfl)
  | packet p =>
    simp only [Enabled, decide_eq_true_eq] at he
    simp only [Client311.step] at hs
    split at hs
    · cases hs
    · next chan hch => exact h.receive hh he.1 hch ho hs
  | ping => exact h.create hh hn hs
  | run k result =>
    obtain ⟨rfl, _⟩ := ho
    simp only [Client311.step] at hs
    cases ht : c.tasks with
    | nil => simp [Enabled, ht] at he
    | cons t tl =>
      obtain ⟨u, chan⟩ := t
      simp only [Enabled, ht, List.getElem?_cons_zero, Bool.and_eq_true, decide_eq_true_eq] at he
      rw [ht] at hs
      simp only [List.getElem?_cons_zero, List.eraseIdx_cons_zero] at hs
      cases hs
      exact h.run hh he.1 he.2.1.symm ht
  | cancel k =>
    obtain ⟨rfl, hon⟩ := ho
    simp only [Client311.step] at hs
    cases ht : c.tasks with
    | nil => simp [Enabled, ht] at he
    | cons t tl =>
      obtain ⟨u, chan⟩ := t
      rw [ht] at hs
      simp only [List.getElem?_cons_zero, List.eraseIdx_cons_zero] at hs
      cases hs
      exact h.cancel hh ht hon
  | timeout uid =>
    simp only [Enabled, decide_eq_true_eq] at he
    simp only [Client311.step] at hs
    split at hs
    · cases hs
    · exact h.finish hh he.1 hs
  | attempt ok =>
    simp only [Enabled, decide_eq_true_eq] at he
    have hst := hc.scheduled he.2
    have hnd : c.state ≠ .disconnected := by rcases hst with h | h <;> rw [h] <;> intro h <;> cases h
    have hch : c.chan = none := by
      rcases hc.driver hnd he.1 with ⟨_, _, e⟩ | ⟨_, _, e⟩ | ⟨_, e, _⟩
      · exact absurd he.2 e
      · exact absurd he.2 e
      · exact e
    have hon := (hc.noChan hch).2.2.2
    simp only [Client311.step, Conn.attempt] at hs
    split at hs
    · split at hs
      · cases hs; exact same _ rfl rfl rfl rfl rfl (Calm.same rfl)
      · exact Line.released hs h.pending hon (h.closed hch) hch
    · split at hs <;> cases hs <;> exact same _ rfl rfl rfl rfl rfl (Calm.same rfl)
  | disconnectTask => cases hs; exact same _ rfl rfl rfl rfl rfl (Calm.same rfl)
  | close => cases hs; exact same _ rfl rfl rfl rfl rfl (Calm.same rfl)
  | shutdown => cases hs; exact h.shutdown ho

theorem Reachable.line {c : Conn} (h : Reachable InOrder c) : Line c := by
  induction h with
  | init => exact Line.init
  | step hr _ he ha hs ih => exact ih.step hr.inv.1 hr.inv.2 hr.sends he ha hs

/-- A request is sent when all that were submitted before it are completed or have been sent on the same channel. -/
theorem Reachable.inLine {c : Conn} (h : Reachable InOrder c) {pre post : List Trace} {u n : Nat} {d : Bool}
    (e : c.log = pre ++ .sent u n d :: post) :
    (∀ v id kind size, Outstanding pre v id kind size → v < u → SentOn pre v n) ∧ ∀ v, SentOn pre v n → v < u := by
  induction h generalizing pre post with
  | init => simp at e
  | step hr hd he ha hs ih =>
    next c c' ev =>
    rcases step_log hs with ⟨l, e1, hl⟩ | ⟨k, result, uid, chan, r, l, rfl, hk, hreq, e1, hl⟩
    · rw [e1] at e
      obtain ⟨post', e2⟩ := split_old (t := .sent u n d) e (fun h => by have := hl _ h; simp [isSend] at this)
      exact ih e2
    · rw [e1] at e
      rcases split_new e (fun h => by have := hl _ h; simp [isSend] at this) with ⟨e2, e3⟩ | ⟨post', e2⟩
      rotate_left
      · exact ih e2
      · cases e3
        subst e2
        obtain ⟨rfl, hp⟩ := ha
        have hline := hr.line
        simp only [Enabled, hk, Bool.and_eq_true, decide_eq_true_eq] at he
        have hch : c.chan = some n := he.2.1.symm
        have hmem : (u, n) ∈ c.tasks := List.mem_of_getElem? hk
        refine ⟨?_, fun v hv => hline.front v n hch hv _ hmem⟩
        intro v id kind size ho hlt
        refine (hr.ongoing_iff hch ho).1 ?_
        have hlv := (hr.outstanding ho).1
        simp only [Conn.live, hp, he.1, Busy.todo, List.nil_append, List.append_nil, List.mem_append] at hlv
        rcases hlv with hlv | hlv
        · exact hlv
        · have hs := hline.sorted
          cases ht : c.tasks with
          | nil => rw [ht] at hmem; cases hmem
          | cons t tl =>
            rw [ht] at hk hlv hs
            simp only [List.getElem?_cons_zero, Option.some.injEq] at hk
            subst hk
            rw [List.map_cons] at hlv hs
            rcases List.mem_cons.1 hlv with rfl | hlv
            · exact absurd hlt (Nat.lt_irrefl _)
            · have := (List.pairwise_cons.1 (List.pairwise_append.1 hs).2.1).1 v hlv
              simp only at this
              omega

/-- A request is accepted. -/
def isNew : Trace → Bool
  | .accepted .. => true
  | _ => false

/-- The log grows, and no request is accepted. -/
def NoNew (c c' : Conn) : Prop := ∃ l, c'.log = c.log ++ l ∧ ∀ t ∈ l, isNew t = false

theorem NoNew.same {c c' : Conn} (h : c'.log = c.log) : NoNew c c' := ⟨[], by simp [h], by simp⟩

theorem NoNew.one {c c' : Conn} {t : Trace} (h : c'.log = c.log ++ [t]) (ht : isNew t = false) : NoNew c c' :=
  ⟨[t], h, by simpa using ht⟩

theorem NoNew.trans {a b c : Conn} (h1 : NoNew a b) (h2 : NoNew b c) : NoNew a c := by
  obtain ⟨l, e, hl⟩ := h1
  obtain ⟨m, e2, hm⟩ := h2
  refine ⟨l ++ m, by rw [e2, e, List.append_assoc], ?_⟩
  intro t ht
  rcases List.mem_append.1 ht with h | h
  · exact hl t h
  · exact hm t h

theorem NoNew.after {a b c : Conn} (h2 : NoNew b c) (h1 : NoNew a b) : NoNew a c := h1.trans h2

theorem finish_noNew {c c' : Conn} {id : Nat} {o : Outcome} (h : c.finish id o = .ok c') : NoNew c c' := by
  rcases finish_cases h with ⟨_, e⟩ | ⟨u, _, ⟨_, e⟩ | ⟨_, _, e⟩⟩
  · cases e; exact NoNew.same rfl
  · cases e; exact NoNew.one complete_log rfl
  · cases e

theorem suback_noNew {c c' : Conn} {chan id codes : Nat} (h : c.suback chan id codes = .ok c') : NoNew c c' := by
  unfold Conn.suback at h
  split at h
  · cases h; exact NoNew.same rfl
  · split at h
    · cases h
    · split at h
      · cases h
      · split at h
        · cases h; exact NoNew.one rfl rfl
        · exact finish_noNew h

theorem receive_noNew {c c' : Conn} {chan : Nat} {p : Packet} (h : c.receive chan p = .ok c') : NoNew c c' := by
  have t1 : ∀ t, isNew t = false → NoNew c (c.tell t) := fun t ht => NoNew.one rfl ht
  unfold Conn.receive at h
  split at h
  · cases h; exact t1 _ rfl
  · cases h
    unfold Conn.connack
    split
    · exact t1 _ rfl
    · split
      · simp only
        split
        · exact ⟨[_, _], by simp only [Conn.tell, List.append_assoc]; rfl, by simp [isNew]⟩
        · exact ⟨[_, _], by simp only [List.append_assoc]; rfl, by simp [isNew]⟩
      · exact ⟨[_, _], rfl, by simp [isNew]⟩
  · split at h
    · cases h; exact NoNew.one rfl rfl
    · split at h
      · cases h
        split
        · exact NoNew.trans (b := c.tell _) (t1 (.processed chan _) rfl) (NoNew.one rfl rfl)
        · exact t1 _ rfl
      · exact (finish_noNew h).after (t1 _ rfl)
      · exact (finish_noNew h).after (t1 _ rfl)
      · exact (finish_noNew h).after (t1 _ rfl)
      · exact (suback_noNew h).after (t1 _ rfl)
      · cases h; exact (t1 _ rfl).trans (NoNew.one rfl rfl)
      · cases h; exact (t1 _ rfl).trans (NoNew.one rfl rfl)
      · cases h; exact NoNew.one rfl rfl

theorem release_noNew {c c' : Conn} (h : c.release = .ok c') : NoNew c c' := by
  rcases release_cases h with ⟨rfl, _⟩ | ⟨rfl, _⟩
  · exact NoNew.same rfl
  · exact ⟨c.pending.map (.completed · .destroyed) ++ [.destroyed], by simp [Conn.destroyFinal], by
      intro t ht
      simp only [List.mem_append, List.mem_map, List.mem_singleton] at ht
      rcases ht with ⟨_, _, e⟩ | e <;> cases e <;> rfl⟩

theorem schedule_noNew {c c' : Conn} (h : c.schedule = .ok c') : NoNew c c' := by
  unfold Conn.schedule at h
  split at h
  · cases h
  · cases h; exact NoNew.same rfl

theorem finishDisconnect_noNew {c c' : Conn} {prev : State} (h : c.finishDisconnect prev = .ok c') : NoNew c c' := by
  unfold Conn.finishDisconnect at h
  refine NoNew.trans ?_ (release_noNew h)
  refine ⟨_, rfl, ?_⟩
  intro t ht
  split at ht <;> simp at ht <;> subst ht <;> rfl

theorem advance_noNew {c c' : Conn} (h : c.advance = .ok c') : NoNew c c' := by
  unfold Conn.advance at h
  split at h
  · cases h; exact NoNew.one rfl rfl
  · next all next hb =>
    obtain ⟨rq, tb, tm, e, htm⟩ := removeAll_eq all c
    simp only at h
    rw [e] at h
    split at h
    · cases h; exact NoNew.same rfl
    · exact (schedule_noNew h).after (NoNew.same rfl)
    · cases h; exact NoNew.one rfl rfl
    · cases h; exact NoNew.same rfl
    · exact (finishDisconnect_noNew h).after (NoNew.same rfl)
  · split at h
    · exact finishDisconnect_noNew h
    · exact (schedule_noNew h).after (NoNew.same rfl)
  · cases h; exact NoNew.same rfl

theorem create_new {c c' : Conn} {kind : Kind} {size : Nat} (h : c.create kind size = .ok c') :
    NoNew c c' ∨ ∃ id, c'.log = c.log ++ [.accepted c.nextUid id kind size] := by
  rcases create_cases h with ⟨e, _⟩ | ⟨e, _⟩ | ⟨r, _, ⟨_, e⟩ | ⟨_, _, _, ⟨_, e⟩ | ⟨_, _, _, _, e⟩ | ⟨_, _, e⟩⟩⟩
  · cases e; exact .inl (NoNew.one rfl rfl)
  · cases e; exact .inl (NoNew.one rfl rfl)
  · cases e; exact .inl (NoNew.one rfl rfl)
  · cases e; exact .inr ⟨r.1, rfl⟩
  · cases e; exact .inr ⟨r.1, rfl⟩
  · cases e

/-- What is accepted by an event gets the next number. -/
theorem step_new {c c' : Conn} {e : Event} (h : step c e = .ok c') :
    NoNew c c' ∨ ∃ id kind size, c'.log = c.log ++ [.accepted c.nextUid id kind size] := by
  cases e with
  | create kind size => exact (create_new h).imp_right fun ⟨id, h⟩ => ⟨id, kind, size, h⟩
  | connect clean =>
    cases h
    refine .inl ?_
    unfold Conn.connect
    split
    · exact NoNew.one rfl rfl
    · exact NoNew.same rfl
  | launch ok => cases h; refine .inl ?_; cases ok <;> exact NoNew.one rfl rfl
  | advance => exact .inl (advance_noNew h)
  | disconnect => cases h; refine .inl (NoNew.same ?_); unfold Conn.disconnect; split <;> rfl
  | acquire => cases h; exact .inl (NoNew.same rfl)
  | release => exact .inl ((release_noNew h).after (NoNew.same rfl))
  | setup r =>
    cases h
    refine .inl ?_
    cases r with
    | failed => exact NoNew.same rfl
    | refused => exact NoNew.same rfl
    | unsent =>
      simp only [Conn.setup]
      split
      · exact NoNew.same rfl
      · exact NoNew.one rfl rfl
    | opened =>
      simp only [Conn.setup]
      split
      · exact NoNew.same rfl
      · exact NoNew.one rfl rfl
  | packet p =>
    simp only [Client311.step] at h
    split at h
    · cases h
    · exact .inl (receive_noNew h)
  | ping => exact (create_new h).imp_right fun ⟨id, h⟩ => ⟨id, .ping, 0, h⟩
  | run k result =>
    simp only [Client311.step] at h
    split at h
    · cases h; exact .inl (NoNew.same rfl)
    · next uid chan hk =>
      cases h
      refine .inl ?_
      unfold Conn.send
      split
      · exact NoNew.same rfl
      · next r hr =>
        split
        · exact NoNew.one complete_log rfl
        · simp only
          split
          · exact NoNew.one complete_log rfl
          · exact NoNew.trans (b := c.tell (.sent uid chan r.initiated)) (NoNew.one rfl rfl) (NoNew.one complete_log rfl)
        · next timer topics =>
          exact NoNew.one (t := .sent uid chan r.initiated) change_log rfl
  | cancel k =>
    simp only [Client311.step] at h
    split at h
    · cases h; exact .inl (NoNew.same rfl)
    · cases h
      refine .inl ?_
      unfold Conn.cancelled
      split
      · exact NoNew.same rfl
      · split
        · exact NoNew.same change_log
        · exact NoNew.one complete_log rfl
  | timeout uid =>
    simp only [Client311.step] at h
    split at h
    · cases h
    · exact .inl (finish_noNew h)
  | attempt ok =>
    refine .inl ?_
    simp only [Client311.step, Conn.attempt] at h
    split at h
    · split at h
      · cases h; exact NoNew.same rfl
      · exact (release_noNew h).after (NoNew.one rfl rfl)
    · split at h <;> cases h <;> exact NoNew.same rfl
  | disconnectTask => cases h; exact .inl (NoNew.same rfl)
  | close => cases h; exact .inl (NoNew.same rfl)
  | shutdown => cases h; exact .inl (NoNew.same rfl)

/-- Requests are numbered in the order in which they are accepted. -/
theorem Reachable.numbered {allowed : Conn → Event → Prop} {c : Conn} (h : Reachable allowed c) {pre post : List Trace}
    {u id size : Nat} {kind : Kind} (e : c.log = pre ++ .accepted u id kind size :: post) :
    ∀ v, wasAccepted pre v → v < u := by
  induction h generalizing pre post with
  | init => simp at e
  | step hr hd he ha hs ih =>
    next c c' ev =>
    rcases step_new hs with ⟨l, e1, hl⟩ | ⟨i, k, s, e1⟩
    · rw [e1] at e
      obtain ⟨post', e2⟩ := split_old (t := .accepted u id kind size) e (fun h => by have := hl _ h; simp [isNew] at this)
      exact ih e2
    · rw [e1] at e
      rcases split_new e (by simp) with ⟨e2, e3⟩ | ⟨post', e2⟩
      rotate_left
      · exact ih e2
      · cases e3
        subst e2
        obtain ⟨⟨done, _, hst⟩, _⟩ := hr.inv.2
        exact fun v hv => (hst.acc v).1 hv

end Mqtt.Client311
