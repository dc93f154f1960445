import Verif.Lemmas.Subs311Strings

/-!
The reference counts of the topics of an MQTT 3.1.1 connection (C84).
-/
namespace Mqtt.Subs311
open Mqtt Mqtt.Spec Mqtt.TopicTree

theorem release_spec (us : List Nat) : ∀ refs : Nat → Nat, (∀ u, us.count u ≤ refs u) →
    (∀ u, (release refs us).1 u = refs u - us.count u) ∧
    (∀ u, (release refs us).2.count (.cleanup u) = if 0 < us.count u ∧ refs u = us.count u then 1 else 0) ∧
    (∀ e ∈ (release refs us).2, ∃ u, e = .cleanup u ∧ u ∈ us) := by
  induction us with
  | nil => intro refs _; simp [release]
  | cons x us ih =>
    intro refs h
    have hx : refs x ≠ 0 := by have := h x; simp at this; omega
    unfold release
    rw [if_neg hx]
    simp only
    obtain ⟨h1, h2, h3⟩ := ih (fun v => if v = x then refs x - 1 else refs v) (by
      intro u
      have := h u
      rw [List.count_cons] at this
      by_cases hu : u = x
      · subst hu; simp at this ⊢; omega
      · simp only [if_neg hu]; simp [Ne.symm hu] at this; omega)
    refine ⟨?_, ?_, ?_⟩
    · intro u
      rw [h1, List.count_cons]
      by_cases hu : u = x
      · subst hu; simp; omega
      · simp [hu, Ne.symm hu]
    · intro u
      rw [List.count_append, h2]
      have hxx := h u
      rw [List.count_cons] at hxx ⊢
      by_cases hu : u = x
      · subst hu
        simp only [if_pos, beq_self_eq_true] at hxx ⊢
        by_cases h1 : refs u = 1
        · have hc : us.count u = 0 := by omega
          simp [h1, hc]
        · rw [if_neg h1]
          simp only [List.count_nil]
          by_cases hc : us.count u = 0
          · rw [if_neg (by omega), if_neg (by omega)]
          · by_cases hd : refs u = us.count u + 1
            · rw [if_pos (by omega), if_pos (by omega)]
            · rw [if_neg (by omega), if_neg (by omega)]
      · have hz : (if refs x = 1 then [Entry.cleanup x] else []).count (.cleanup u) = 0 := by
          split
          · simp [Ne.symm hu]
          · rfl
        rw [hz]
        simp [hu, Ne.symm hu]
    · intro e he
      rcases List.mem_append.1 he with he | he
      · split at he
        · simp at he; exact ⟨x, he, by simp⟩
        · cases he
      · obtain ⟨u, e1, e2⟩ := h3 e he
        exact ⟨u, e1, by simp [e2]⟩

theorem acquire_spec (us : List Nat) : ∀ (refs : Nat → Nat) (u : Nat), acquire refs us u = refs u + us.count u := by
  induction us with
  | nil => intro refs u; simp [acquire]
  | cons x us ih =>
    intro refs u
    unfold acquire
    rw [ih, List.count_cons]
    by_cases hu : u = x
    · subst hu; simp; omega
    · simp [hu, Ne.symm hu]

/-- The topics a request holds. -/
def holds (r : Request) : List Nat := if r.kind = .subscribe then r.topics.filterMap (·.uid) else []

def Entry.quiet : Entry → Bool
  | .cleanup _ | .invalid _ | .called _ _ => false
  | _ => true

structure Same (r r' : Request) : Prop where
  id : r'.id = r.id
  kind : r'.kind = r.kind
  holds : holds r' = Subs311.holds r

theorem Same.refl (r : Request) : Same r r := ⟨rfl, rfl, rfl⟩

structure RI (c : Conn) (log : List Entry) : Prop where
  count : ∃ leak : Nat → Nat, (∀ u, c.refs u = (held c.table.nodes).count u + (c.requests.flatMap holds).count u + leak u) ∧
    ∀ u, 0 < leak u → Lost log u
  fresh : ∀ u, c.nextUid ≤ u → c.refs u = 0 ∧ .cleanup u ∉ log
  cleaned : ∀ u, u < c.nextUid → log.count (.cleanup u) = if c.refs u = 0 then 1 else 0
  valid : ∀ u, .invalid u ∉ log
  pend : ∀ id fs, .called id (.subscribe fs) ∈ log →
    (∃ r ∈ c.requests, r.id = id ∧ r.kind = .subscribe ∧ holds r = fs.map (·.2.2)) ∨ ∃ gs ok, .answered id gs ok ∈ log
  ans : ∀ r ∈ c.requests, ∀ gs ok, .answered r.id gs ok ∉ log
  own : ∀ r ∈ c.requests, r.kind = .subscribe → ∃ fs, .called r.id (.subscribe fs) ∈ log ∧ holds r = fs.map (·.2.2)
  uid : ∀ id fs e, .called id (.subscribe fs) ∈ log → e ∈ fs → e.2.2 < c.nextUid
  uniq : ∀ id fs id' fs' e e', .called id (.subscribe fs) ∈ log → .called id' (.subscribe fs') ∈ log → e ∈ fs → e' ∈ fs' →
    e.2.2 = e'.2.2 → id = id'
  ids : ∀ r ∈ c.requests, r.id < c.nextId
  anslt : ∀ id gs ok, .answered id gs ok ∈ log → id < c.nextId

theorem ri_init : RI {} [] := by
  constructor <;> simp [Tree.init, held]
  exact ⟨fun _ => 0, fun _ => rfl, fun _ h => absurd h (Nat.lt_irrefl _)⟩

theorem Lost.append {log : List Entry} {u : Nat} (h : Lost log u) (out : List Entry) : Lost (log ++ out) u := by
  obtain ⟨id, fs, e, h1, h2, h3, h4⟩ := h
  exact ⟨id, fs, e, by simp [h1], h2, h3, by simp [h4]⟩

/-- Any step but a call. -/
theorem ri_next {c c' : Conn} {log out : List Entry} (h : RI c log) (R : Nat → Nat) (us : List Nat) (q1 q2 : List Entry)
    (hout : out = q1 ++ (release R us).2 ++ q2) (hq : ∀ e ∈ q1 ++ q2, e.quiet = true)
    (hrefs : c'.refs = (release R us).1) (hn : c'.nextUid = c.nextUid) (hid : c'.nextId = c.nextId)
    (hR : ∀ u, R u = 0 ↔ c.refs u = 0) (hle : ∀ u, us.count u ≤ R u)
    (hcount : ∃ leak : Nat → Nat, (∀ u, R u = (held c'.table.nodes).count u + (c'.requests.flatMap holds).count u + us.count u + leak u) ∧
      ∀ u, 0 < leak u → Lost (log ++ out) u)
    (hback : ∀ r' ∈ c'.requests, ∃ r ∈ c.requests, Same r r' ∧ ∀ gs ok, Entry.answered r'.id gs ok ∉ q1 ++ q2)
    (hforth : ∀ r ∈ c.requests, r.kind = .subscribe → (∃ r' ∈ c'.requests, Same r r') ∨ ∃ gs ok, Entry.answered r.id gs ok ∈ q1 ++ q2)
    (hans : ∀ id gs ok, Entry.answered id gs ok ∈ q1 ++ q2 → ∃ r ∈ c.requests, r.id = id) : RI c' (log ++ out) := by
  obtain ⟨e1, e2, e3⟩ := release_spec us R hle
  have hcalled : ∀ id x, Entry.called id x ∈ log ++ out → Entry.called id x ∈ log := by
    intro id x hx
    rcases List.mem_append.1 hx with hx | hx
    · exact hx
    · rw [hout] at hx
      rcases List.mem_append.1 hx with hx | hx
      · rcases List.mem_append.1 hx with hx | hx
        · cases hq _ (List.mem_append_left _ hx)
        · obtain ⟨u, e, _⟩ := e3 _ hx; cases e
      · cases hq _ (List.mem_append_right _ hx)
  have hanswered : ∀ id gs ok, Entry.answered id gs ok ∈ log ++ out ↔ Entry.answered id gs ok ∈ log ∨ Entry.answered id gs ok ∈ q1 ++ q2 := by
    intro id gs ok
    rw [hout]
    simp only [List.mem_append]
    constructor
    · rintro (hx | (hx | hx) | hx)
      · exact .inl hx
      · exact .inr (.inl hx)
      · obtain ⟨u, e, _⟩ := e3 _ hx; cases e
      · exact .inr (.inr hx)
    · rintro (hx | hx | hx)
      · exact .inl hx
      · exact .inr (.inl (.inl hx))
      · exact .inr (.inr hx)
  have hq0 : ∀ (q : List Entry) u, (∀ e ∈ q, e.quiet = true) → q.count (.cleanup u) = 0 := by
    intro q u hq
    rw [List.count_eq_zero]
    intro hx
    cases hq _ hx
  have hcu : ∀ u, (log ++ out).count (.cleanup u) = log.count (.cleanup u) + if 0 < us.count u ∧ R u = us.count u then 1 else 0 := by
    intro u
    rw [hout, List.count_append, List.count_append, List.count_append, e2,
      hq0 q1 u (fun e he => hq e (List.mem_append_left _ he)), hq0 q2 u (fun e he => hq e (List.mem_append_right _ he))]
    omega
  constructor
  · obtain ⟨leak, l1, l2⟩ := hcount
    refine ⟨leak, ?_, l2⟩
    intro u
    rw [hrefs, e1]
    have := l1 u
    have := hle u
    omega
  · intro u hu
    rw [hn] at hu
    obtain ⟨f1, f2⟩ := h.fresh u hu
    have hRu := (hR u).2 f1
    have hleu := hle u
    refine ⟨by rw [hrefs, e1, hRu]; simp, ?_⟩
    rw [← List.count_eq_zero, hcu, List.count_eq_zero.2 f2, if_neg (by omega)]
  · intro u hu
    rw [hn] at hu
    rw [hcu, h.cleaned u hu, hrefs, e1]
    have hRu := hR u
    have hleu := hle u
    by_cases h0 : c.refs u = 0
    · have := hRu.2 h0
      rw [if_pos h0, if_neg (by omega), if_pos (by omega)]
    · have : R u ≠ 0 := fun e => h0 (hRu.1 e)
      rw [if_neg h0]
      by_cases he : R u = us.count u
      · rw [if_pos (by omega), if_pos (by omega)]
      · rw [if_neg (by omega), if_neg (by omega)]
  · intro u hx
    rcases List.mem_append.1 hx with hx | hx
    · exact h.valid u hx
    · rw [hout] at hx
      rcases List.mem_append.1 hx with hx | hx
      · rcases List.mem_append.1 hx with hx | hx
        · cases hq _ (List.mem_append_left _ hx)
        · obtain ⟨u, e, _⟩ := e3 _ hx; cases e
      · cases hq _ (List.mem_append_right _ hx)
  · intro id fs hx
    rcases h.pend id fs (hcalled _ _ hx) with ⟨r, hr, rfl, hk, hh⟩ | ⟨gs, ok, ha⟩
    · rcases hforth r hr hk with ⟨r', hr', hs⟩ | ⟨gs, ok, ha⟩
      · exact .inl ⟨r', hr', hs.id, hs.kind.trans hk, hs.holds.trans hh⟩
      · exact .inr ⟨gs, ok, (hanswered _ _ _).2 (.inr ha)⟩
    · exact .inr ⟨gs, ok, (hanswered _ _ _).2 (.inl ha)⟩
  · intro r' hr' gs ok hx
    obtain ⟨r, hr, hs, hno⟩ := hback r' hr'
    rcases (hanswered _ _ _).1 hx with hx | hx
    · rw [hs.id] at hx; exact h.ans r hr gs ok hx
    · exact hno gs ok hx
  · intro r' hr' hk
    obtain ⟨r, hr, hs, _⟩ := hback r' hr'
    obtain ⟨fs, f1, f2⟩ := h.own r hr (hs.kind.symm.trans hk)
    exact ⟨fs, by rw [hs.id]; exact List.mem_append_left _ f1, hs.holds.trans f2⟩
  · intro id fs e hx he
    rw [hn]; exact h.uid id fs e (hcalled _ _ hx) he
  · intro id fs id' fs' e e' h1 h2
    exact h.uniq id fs id' fs' e e' (hcalled _ _ h1) (hcalled _ _ h2)
  · intro r' hr'
    obtain ⟨r, hr, hs, _⟩ := hback r' hr'
    rw [hs.id, hid]; exact h.ids r hr
  · intro id gs ok hx
    rw [hid]
    rcases (hanswered _ _ _).1 hx with hx | hx
    · exact h.anslt id gs ok hx
    · obtain ⟨r, hr, rfl⟩ := hans id gs ok hx
      exact h.ids r hr

theorem complete_shape (c : Conn) {r r' : Request} (hs : Same r r') (ok : Bool) :
    ∃ q, (c.complete r' ok).2 = q ++ (release c.refs (holds r)).2 ∧ (c.complete r' ok).1.refs = (release c.refs (holds r)).1 ∧
      (∀ e ∈ q, e.quiet = true) ∧ (∀ id gs ok, Entry.answered id gs ok ∈ q → id = r.id) ∧
      (r.kind = .subscribe → ∃ gs, q = [.answered r.id gs ok]) := by
  unfold Conn.complete Conn.finish
  simp only
  split
  · next hk =>
    have hh : r'.topics.filterMap (·.uid) = holds r := by
      rw [← hs.holds]; unfold holds; rw [if_pos hk]
    rw [hh, hs.id]
    refine ⟨[.answered r.id (readTopics c.table r'.topics) ok], rfl, rfl, by simp [Entry.quiet], ?_, fun _ => ⟨_, rfl⟩⟩
    intro id gs ok h
    simp at h
    exact h.1
  · next hk =>
    have hr : r.kind = .resubscribe := hs.kind.symm.trans hk
    have hh : holds r = [] := by unfold holds; rw [hr]; rfl
    rw [hh, hs.id]
    split
    · exact ⟨[], rfl, rfl, by simp, by simp, by rw [hr]; intro h; cases h⟩
    · refine ⟨[.answered r.id (readTopics c.table r'.topics) ok], rfl, rfl, by simp [Entry.quiet], ?_, by rw [hr]; intro h; cases h⟩
      intro id gs ok h
      simp at h
      exact h.1
  · next f hk =>
    have hr : r.kind = .unsubscribe f := hs.kind.symm.trans hk
    have hh : holds r = [] := by unfold holds; rw [hr]; rfl
    rw [hh, hs.id]
    exact ⟨[.unsubscribed r.id ok], rfl, rfl, by simp [Entry.quiet], by simp, by rw [hr]; intro h; cases h⟩

theorem count_filter_id {rs : List Request} (hnd : (rs.map (·.id)).Nodup) {r : Request} (hr : r ∈ rs) (u : Nat) :
    (rs.flatMap holds).count u = ((rs.filter (·.id ≠ r.id)).flatMap holds).count u + (holds r).count u := by
  induction rs with
  | nil => cases hr
  | cons x rs ih =>
    simp only [List.map_cons, List.nodup_cons, List.mem_map, not_exists, not_and] at hnd
    rcases List.mem_cons.1 hr with rfl | hr
    · have hf : rs.filter (fun y => decide (y.id ≠ r.id)) = rs := List.filter_eq_self.2 (fun y hy => by simpa using hnd.1 y hy)
      have hc : (r :: rs).filter (fun y => decide (y.id ≠ r.id)) = rs := by
        rw [List.filter_cons, if_neg (by simp), hf]
      rw [hc]
      simp [List.flatMap_cons, List.count_append, Nat.add_comm]
    · have hne : x.id ≠ r.id := fun e => hnd.1 r hr e.symm
      rw [List.filter_cons, if_pos (by simpa using hne)]
      simp only [List.flatMap_cons, List.count_append]
      rw [ih hnd.2 hr]
      omega

/-- A request completes, after some of its topics were acquired in vain. -/
theorem ri_complete {c c1 : Conn} {log : List Entry} (h : RI c log) (hnd : (c.requests.map (·.id)).Nodup) (hreq : c1.requests = c.requests)
    (htab : c1.table.nodes = c.table.nodes) (hn : c1.nextUid = c.nextUid) (hid : c1.nextId = c.nextId)
    {r r' : Request} (hr : r ∈ c.requests) (hs : Same r r') (ok : Bool) (A : Nat → Nat) (hA : ∀ u, c1.refs u = c.refs u + A u)
    (hA' : ∀ u, 0 < A u → u ∈ holds r ∧ r.kind = .subscribe ∧ .unsent r.id ∈ log) :
    RI (c1.complete r' ok).1 (log ++ (c1.complete r' ok).2) := by
  obtain ⟨q, s1, s2, s3, s4, s5⟩ := complete_shape c1 hs ok
  obtain ⟨refs, e⟩ := complete_conn c1 r' ok
  have hcf := count_filter_id hnd hr
  obtain ⟨leak, l1, l2⟩ := h.count
  have hreqs : (c1.complete r' ok).1.requests = c.requests.filter (·.id ≠ r.id) := by rw [e, hreq, hs.id]
  have htabs : (c1.complete r' ok).1.table.nodes = c.table.nodes := by rw [e]; exact htab
  have hpos : ∀ u, u ∈ holds r → 0 < c.refs u := by
    intro u hu
    have a := l1 u
    have b := hcf u
    have := List.count_pos_iff.2 hu
    omega
  refine ri_next h c1.refs (holds r) q [] (by rw [s1]; simp) (by simpa using s3) s2 (by rw [e]; exact hn) (by rw [e]; exact hid) ?_ ?_ ?_ ?_ ?_ ?_
  · intro u
    rw [hA]
    by_cases hz : A u = 0
    · rw [hz]; exact Iff.rfl
    · have := hpos u (hA' u (by omega)).1
      omega
  · intro u
    have a := l1 u
    have b := hcf u
    have := hA u
    omega
  · refine ⟨fun u => leak u + A u, ?_, ?_⟩
    · intro u
      rw [htabs, hreqs]
      have a := l1 u
      have b := hcf u
      have := hA u
      simp only [ne_eq] at b ⊢
      omega
    · intro u hu
      by_cases hz : A u = 0
      · exact (l2 u (by simp only [hz] at hu; omega)).append _
      · obtain ⟨a1, a2, a3⟩ := hA' u (by omega)
        obtain ⟨fs, f1, f2⟩ := h.own r hr a2
        rw [f2, List.mem_map] at a1
        obtain ⟨x, hx, rfl⟩ := a1
        exact ⟨r.id, fs, x, by simp [f1], hx, rfl, by simp [a3]⟩
  · intro x hx
    rw [hreqs, List.mem_filter] at hx
    refine ⟨x, hx.1, .refl x, ?_⟩
    intro gs ok' hm
    rw [List.append_nil] at hm
    have := s4 _ _ _ hm
    simp [this] at hx
  · intro x hx hk
    by_cases hxr : x.id = r.id
    · have : x = r := eq_of_id hnd hx hr hxr
      subst this
      obtain ⟨gs, hq⟩ := s5 hk
      exact .inr ⟨gs, ok, by rw [hq]; simp⟩
    · exact .inl ⟨x, by rw [hreqs, List.mem_filter]; exact ⟨hx, by simpa using hxr⟩, .refl x⟩
  · intro id gs ok' hm
    rw [List.append_nil] at hm
    exact ⟨r, hr, (s4 _ _ _ hm).symm⟩

theorem commitAction_cleaned (pick : List Nat → Nat) (t : Tree) (a : Action) : t.cleaned <+: (commitAction pick t a).cleaned := by
  have hadd : t.cleaned <+: (commitAdd t a).cleaned := by
    unfold commitAdd
    split
    · exact List.prefix_rfl
    · simp only
      split
      · exact List.prefix_append _ _
      · split <;> exact List.prefix_append _ _
  unfold commitAction
  split
  · exact hadd
  · exact hadd
  · unfold commitRemove
    split
    · exact List.prefix_rfl
    · simp only
      split <;> exact List.prefix_append _ _

theorem commit_cleaned (pick : List Nat → Nat) (as : List Action) : ∀ t : Tree, t.cleaned <+: (commit pick t as).cleaned := by
  induction as with
  | nil => intro t; exact List.prefix_rfl
  | cons a as ih => intro t; exact (commitAction_cleaned pick t a).trans (ih _)

theorem txInserts_cleaned (fs : List (Bytes × Sub)) : ∀ t : Tree, (txInserts t fs).1.cleaned = t.cleaned := by
  induction fs with
  | nil => intro t; rfl
  | cons e fs ih =>
    intro t
    obtain ⟨f, s⟩ := e
    exact (ih (txInsert t f s).1).trans (txInsert_cleaned t f s)

theorem subscribe_cleaned (pick : List Nat → Nat) (t : Tree) (fs : List (Bytes × Sub)) : t.cleaned <+: (subscribe pick t fs).cleaned := by
  have := commit_cleaned pick (txInserts t fs).2 (txInserts t fs).1
  rw [txInserts_cleaned] at this
  exact this

theorem unsubscribe_cleaned (pick : List Nat → Nat) (t : Tree) (f : Bytes) : t.cleaned <+: (unsubscribe pick t f).cleaned := by
  unfold unsubscribe
  split
  · exact List.prefix_rfl
  · exact commit_cleaned pick _ _

theorem drop_count {a b : List Nat} (h : a <+: b) (u : Nat) : b.count u = a.count u + (b.drop a.length).count u := by
  obtain ⟨d, rfl⟩ := h
  simp

theorem flatMap_same {α β : Type} {f g : α → List β} {l : List α} (h : ∀ x ∈ l, f x = g x) : l.flatMap f = l.flatMap g := by
  induction l with
  | nil => rfl
  | cons x l ih =>
    rw [List.flatMap_cons, List.flatMap_cons, h x (by simp), ih (fun y hy => h y (by simp [hy]))]

theorem update_same {c : Conn} (hnd : (c.requests.map (·.id)).Nodup) {r r' : Request} (hr : r ∈ c.requests) (hs : Same r r') :
    (∀ u, ((c.update r').requests.flatMap holds).count u = (c.requests.flatMap holds).count u) ∧
    (∀ x ∈ (c.update r').requests, ∃ y ∈ c.requests, Same y x) ∧ (∀ y ∈ c.requests, ∃ x ∈ (c.update r').requests, Same y x) := by
  have hsame : ∀ y ∈ c.requests, Same y (if y.id = r'.id then r' else y) := by
    intro y hy
    split
    · next e => rw [eq_of_id hnd hy hr (e.trans hs.id)]; exact hs
    · exact .refl y
  refine ⟨?_, ?_, ?_⟩
  · intro u
    unfold Conn.update
    simp only [List.flatMap_map]
    rw [flatMap_same (fun y hy => (hsame y hy).holds)]
  · intro x hx
    unfold Conn.update at hx
    simp only [List.mem_map] at hx
    obtain ⟨y, hy, rfl⟩ := hx
    exact ⟨y, hy, hsame y hy⟩
  · intro y hy
    exact ⟨_, List.mem_map.2 ⟨y, hy, rfl⟩, hsame y hy⟩

/-- A step in which nothing completes. -/
theorem ri_update {c c' : Conn} {log : List Entry} (h : RI c log) (hnd : (c.requests.map (·.id)).Nodup) {r r' : Request} (hr : r ∈ c.requests)
    (hs : Same r r') (hreq : c'.requests = (c.update r').requests) (hn : c'.nextUid = c.nextUid) (hid : c'.nextId = c.nextId)
    (A : Nat → Nat) (us : List Nat) (q : List Entry) (hq : ∀ e ∈ q, e.quiet = true) (hq' : ∀ id gs ok, Entry.answered id gs ok ∉ q)
    (hA : ∀ u, 0 < A u → u ∈ holds r) (R : Nat → Nat) (hR : ∀ u, R u = c.refs u + A u) (hrefs : c'.refs = (release R us).1)
    (hbal : ∀ u, us.count u + (held c'.table.nodes).count u = (held c.table.nodes).count u + A u) :
    RI c' (log ++ (q ++ (release R us).2)) := by
  obtain ⟨u1, u2, u3⟩ := update_same hnd hr hs
  obtain ⟨leak, l1, l2⟩ := h.count
  refine ri_next h R us q [] (by simp) (by simpa using hq) hrefs hn hid ?_ ?_ ?_ ?_ ?_ ?_
  · intro u
    rw [hR]
    by_cases hz : A u = 0
    · rw [hz]; exact Iff.rfl
    · have a := l1 u
      have b := count_filter_id hnd hr u
      have := List.count_pos_iff.2 (hA u (by omega))
      omega
  · intro u
    have a := l1 u
    have b := hbal u
    have := hR u
    omega
  · refine ⟨leak, ?_, fun u hu => (l2 u hu).append _⟩
    intro u
    rw [hreq, u1]
    have a := l1 u
    have b := hbal u
    have := hR u
    omega
  · intro x hx
    rw [hreq] at hx
    obtain ⟨y, hy, hsy⟩ := u2 x hx
    exact ⟨y, hy, hsy, by simpa using hq' _⟩
  · intro y hy _
    obtain ⟨x, hx, hsx⟩ := u3 y hy
    exact .inl ⟨x, by rw [hreq]; exact hx, hsx⟩
  · intro id gs ok hm
    rw [List.append_nil] at hm
    exact absurd hm (hq' _ _ _)

theorem insertable_uids (ts : List Topic) : ∀ u, u ∈ (insertable ts).1.filterMap (fun e : Bytes × Topic => e.2.uid) → u ∈ ts.filterMap (·.uid) := by
  intro u hu
  rw [List.mem_filterMap] at hu ⊢
  obtain ⟨e, he, h⟩ := hu
  exact ⟨e.2, (insertable_keys ts e he).1, h⟩

theorem subs_cleanup (l : List (Bytes × Topic)) :
    (l.map fun e : Bytes × Topic => (e.1, e.2.sub)).flatMap (fun e : Bytes × Sub => cleanupOf (some e.2)) =
      l.filterMap fun e : Bytes × Topic => e.2.uid := by
  induction l with
  | nil => rfl
  | cons e l ih =>
    simp only [List.map_cons, List.flatMap_cons, List.filterMap_cons]
    rw [ih]
    unfold Topic.sub cleanupOf
    cases e.2.uid <;> rfl

theorem ri_same {c : Conn} {log : List Entry} (h : RI c log) (q : List Entry) (hq : ∀ e ∈ q, e.quiet = true)
    (hq' : ∀ id gs ok, Entry.answered id gs ok ∉ q) : RI c (log ++ q) := by
  obtain ⟨leak, l1, l2⟩ := h.count
  exact ri_next h c.refs [] q [] (by simp [release]) (by simpa using hq) rfl rfl rfl (fun _ => Iff.rfl) (by simp)
    ⟨leak, by simpa using l1, fun u hu => (l2 u hu).append _⟩ (fun r hr => ⟨r, hr, .refl r, by simpa using hq' _⟩)
    (fun r hr _ => .inl ⟨r, hr, .refl r⟩) (by simp only [List.append_nil]; intro id gs ok hm; exact absurd hm (hq' _ _ _))

theorem ri_sendSubscribe {c : Conn} {log : List Entry} (h : Inv c log) (hri : RI c log) {r : Request} (hr : r ∈ c.requests)
    (hk : r.kind = .subscribe) (pick : List Nat → Nat) (w : Bool) :
    RI (c.sendSubscribe pick r w).1 (log ++ (c.sendSubscribe pick r w).2) := by
  obtain ⟨fs, hl, htop, hval, hpk, hup⟩ := (h.reqs r hr).sub hk
  have hholds : holds r = r.topics.filterMap (·.uid) := by unfold holds; rw [if_pos hk]
  unfold Conn.sendSubscribe
  simp only
  split
  · split
    · exact ri_update hri h.nodup hr (r' := { r with packet := some _ }) ⟨rfl, rfl, rfl⟩ rfl rfl rfl (fun _ => 0) [] [_]
        (by simp [Entry.quiet]) (by simp) (by simp) c.refs (by simp) rfl (by simp [Conn.update])
    · exact ri_complete hri h.nodup rfl rfl rfl rfl hr (.refl r) false (fun _ => 0) (by simp) (by simp)
  · next hu =>
    have hA : ∀ u, 0 < ((insertable r.topics).1.filterMap (fun e : Bytes × Topic => e.2.uid)).count u → u ∈ holds r := by
      intro u hu
      rw [hholds]
      exact insertable_uids _ u (List.count_pos_iff.1 hu)
    split
    · have hkeys : ∀ e ∈ (insertable r.topics).1.map (fun e : Bytes × Topic => (e.1, e.2.sub)), HashLast (split 47 e.1) := by
        intro e he
        rw [List.mem_map] at he
        obtain ⟨x, hx, rfl⟩ := he
        obtain ⟨hm, hke⟩ := insertable_keys _ x hx
        rw [htop, List.mem_map] at hm
        obtain ⟨y, hy, e2⟩ := hm
        refine hashLast_tableKey (hval y hy) ?_
        rw [← hke, ← e2]
        rfl
      obtain ⟨_, _, hcnt⟩ := subscribe_spec pick h.tree _ hkeys
      rw [subs_cleanup] at hcnt
      refine ri_update hri h.nodup hr (r' := { r with packet := some (r.packet.getD (r.topics.map fun x => (x.cur, x.qos))), updated := true }) ⟨rfl, rfl, rfl⟩ ?_ ?_ ?_
        (fun u => ((insertable r.topics).1.filterMap (fun e : Bytes × Topic => e.2.uid)).count u) _ [.sent r.id _]
        (by simp [Entry.quiet]) (by simp) hA _ (acquire_spec _ _) ?_ ?_
      · rfl
      · rfl
      · rfl
      · rfl
      intro u
      have a := hcnt u
      have b := drop_count (subscribe_cleaned pick c.table ((insertable r.topics).1.map fun e : Bytes × Topic => (e.1, e.2.sub))) u
      simp only [Conn.setTable, Conn.update]
      omega
    · obtain ⟨ha1, ha2⟩ := aborted_spec ((insertable r.topics).1.map fun e : Bytes × Topic => TxStep.insert e.1 e.2.sub) c.table h.tree.closed
      have hd : (aborted c.table ((insertable r.topics).1.map fun e : Bytes × Topic => TxStep.insert e.1 e.2.sub)).cleaned.drop c.table.cleaned.length = [] := by
        rw [ha2]; simp
      simp only [Conn.setTable, hd, release, List.nil_append]
      rw [List.append_cons]
      have hri := ri_same hri [.unsent r.id] (by simp [Entry.quiet]) (by simp)
      refine ri_complete hri h.nodup ?_ ?_ ?_ ?_ hr (.refl r) false
        (fun u => ((insertable r.topics).1.filterMap (fun e : Bytes × Topic => e.2.uid)).count u) ?_ ?_
      · rfl
      · exact ha1
      · rfl
      · rfl
      · exact acquire_spec _ _
      intro u hu
      exact ⟨hA u hu, hk, by simp⟩

theorem ri_sendResubscribe {c : Conn} {log : List Entry} (h : Inv c log) (hri : RI c log) {r : Request} (hr : r ∈ c.requests)
    (hk : r.kind = .resubscribe) (order : List (Nat × Nat)) (w : Bool) :
    RI (c.sendResubscribe order r w).1 (log ++ (c.sendResubscribe order r w).2) := by
  have hs : ∀ ts p, Same r { r with topics := ts, packet := p } := by
    intro ts p
    refine ⟨rfl, rfl, ?_⟩
    unfold holds
    simp [hk]
  unfold Conn.sendResubscribe
  simp only
  split
  · exact ri_complete hri h.nodup rfl rfl rfl rfl hr (hs _ _) true (fun _ => 0) (by simp) (by simp)
  · split
    · exact ri_update hri h.nodup hr (hs _ _) rfl rfl rfl (fun _ => 0) [] [_]
        (by simp [Entry.quiet]) (by simp) (by simp) c.refs (by simp) rfl (by simp [Conn.update])
    · exact ri_complete hri h.nodup rfl rfl rfl rfl hr (hs _ _) false (fun _ => 0) (by simp) (by simp)

theorem ri_sendUnsubscribe {c : Conn} {log : List Entry} (h : Inv c log) (hri : RI c log) {r : Request} (hr : r ∈ c.requests) {f : Bytes}
    (pick : List Nat → Nat) (w : Bool) :
    RI (c.sendUnsubscribe pick r f w).1 (log ++ (c.sendUnsubscribe pick r f w).2) := by
  have hfail : RI (c.complete r false).1 (log ++ (c.complete r false).2) :=
    ri_complete hri h.nodup rfl rfl rfl rfl hr (.refl r) false (fun _ => 0) (by simp) (by simp)
  have hupd : (c.update r).requests = c.requests := by
    unfold Conn.update
    simp only
    conv => rhs; rw [← List.map_id c.requests]
    apply List.map_congr_left
    intro x hx
    split
    · next e => exact (eq_of_id h.nodup hx hr e).symm
    · rfl
  unfold Conn.sendUnsubscribe
  split
  · split
    · exact ri_update hri h.nodup hr (.refl r) hupd.symm rfl rfl (fun _ => 0) [] [_]
        (by simp [Entry.quiet]) (by simp) (by simp) c.refs (by simp) rfl (by simp)
    · exact hfail
  · cases hkey : tableKey f with
    | none => exact hfail
    | some k =>
      simp only
      split
      · obtain ⟨_, _, hcnt⟩ := unsubscribe_spec pick h.tree k
        refine ri_update hri h.nodup hr (r' := { r with updated := true }) ⟨rfl, rfl, rfl⟩ ?_ ?_ ?_ (fun _ => 0) _ [.sentUnsubscribe r.id f]
          (by simp [Entry.quiet]) (by simp) (by simp) c.refs (by simp) ?_ ?_
        · rfl
        · rfl
        · rfl
        · rfl
        intro u
        have a := hcnt u
        have b := drop_count (unsubscribe_cleaned pick c.table k) u
        simp only [Conn.setTable, Conn.update]
        omega
      · exact hfail

theorem numbered_uids (fs : List (Bytes × Nat)) : ∀ n, (numbered n fs).map (·.2.2) = List.range' n fs.length := by
  induction fs with
  | nil => intro n; rfl
  | cons e fs ih => intro n; simp [numbered, ih, List.range'_succ]

theorem ri_called {c : Conn} {log : List Entry} (h : RI c log) (r : Request) (x : Call) (hid : r.id = c.nextId) (hh : holds r = [])
    (hx : ∀ fs, x ≠ .subscribe fs) (hk : r.kind ≠ .subscribe) :
    RI { c with requests := c.requests ++ [r], nextId := c.nextId + 1 } (log ++ [.called c.nextId x]) := by
  have hcalled : ∀ id fs, Entry.called id (.subscribe fs) ∈ log ++ [.called c.nextId x] → Entry.called id (.subscribe fs) ∈ log := by
    intro id fs hm
    rcases List.mem_append.1 hm with hm | hm
    · exact hm
    · simp at hm; exact absurd hm.2.symm (hx fs)
  constructor
  · obtain ⟨leak, l1, l2⟩ := h.count
    refine ⟨leak, ?_, fun u hu => (l2 u hu).append _⟩
    intro u
    rw [List.flatMap_append]
    simpa [hh] using l1 u
  · intro u hu
    exact ⟨(h.fresh u hu).1, by simpa using (h.fresh u hu).2⟩
  · intro u hu
    simpa [List.count_append, List.count_cons] using h.cleaned u hu
  · intro u; simpa using h.valid u
  · intro id fs hm
    rcases h.pend id fs (hcalled _ _ hm) with ⟨y, hy, h1⟩ | ⟨gs, ok, ha⟩
    · exact .inl ⟨y, List.mem_append_left _ hy, h1⟩
    · exact .inr ⟨gs, ok, List.mem_append_left _ ha⟩
  · intro y hy gs ok hm
    rcases List.mem_append.1 hm with hm | hm
    · rcases List.mem_append.1 hy with hy | hy
      · exact h.ans y hy gs ok hm
      · simp at hy
        subst hy
        have := h.anslt _ _ _ hm
        omega
    · simp at hm
  · intro y hy hky
    rcases List.mem_append.1 hy with hy | hy
    · obtain ⟨fs, f1, f2⟩ := h.own y hy hky
      exact ⟨fs, List.mem_append_left _ f1, f2⟩
    · simp at hy; subst hy; exact absurd hky hk
  · intro id fs e hm; exact h.uid id fs e (hcalled _ _ hm)
  · intro id fs id' fs' e e' h1 h2; exact h.uniq id fs id' fs' e e' (hcalled _ _ h1) (hcalled _ _ h2)
  · intro y hy
    rcases List.mem_append.1 hy with hy | hy
    · have := h.ids y hy
      show y.id < c.nextId + 1
      omega
    · simp at hy; subst hy; show y.id < c.nextId + 1; omega
  · intro id gs ok hm
    rcases List.mem_append.1 hm with hm | hm
    · have := h.anslt id gs ok hm
      show id < c.nextId + 1
      omega
    · simp at hm

theorem ri_subscribe {c : Conn} {log : List Entry} (hri : RI c log) (fs : List (Bytes × Nat)) :
    RI (step c (.subscribe fs)).1 (log ++ (step c (.subscribe fs)).2) := by
  have hholds : holds { id := c.nextId, kind := .subscribe
                        topics := (numbered c.nextUid fs).map fun e => { cur := .own e.1, qos := e.2.1, uid := some e.2.2 } } = List.range' c.nextUid fs.length := by
    rw [← numbered_uids]
    unfold holds
    rw [if_pos rfl]
    simp [List.filterMap_map, Function.comp_def]
  have huids : ∀ e ∈ numbered c.nextUid fs, c.nextUid ≤ e.2.2 ∧ e.2.2 < c.nextUid + fs.length := by
    intro e he
    have : e.2.2 ∈ (numbered c.nextUid fs).map (·.2.2) := List.mem_map.2 ⟨e, he, rfl⟩
    rw [numbered_uids, List.mem_range'_1] at this
    exact this
  have hcalled : ∀ id gs, Entry.called id (.subscribe gs) ∈ log ++ [.called c.nextId (.subscribe (numbered c.nextUid fs))] →
      Entry.called id (.subscribe gs) ∈ log ∨ (id = c.nextId ∧ gs = numbered c.nextUid fs) := by
    intro id gs hm
    rcases List.mem_append.1 hm with hm | hm
    · exact .inl hm
    · simp at hm; exact .inr hm
  simp only [step]
  constructor
  · obtain ⟨leak, l1, l2⟩ := hri.count
    refine ⟨leak, ?_, fun u hu => (l2 u hu).append _⟩
    intro u
    rw [List.flatMap_append, List.count_append]
    simp only [List.flatMap_cons, List.flatMap_nil, List.append_nil, hholds]
    have a := l1 u
    by_cases hu : c.nextUid ≤ u ∧ u < c.nextUid + fs.length
    · have h0 := (hri.fresh u hu.1).1
      have h1 := List.nodup_iff_count.1 (List.nodup_range' (s := c.nextUid) (n := fs.length) (step := 1)) u
      have h2 := List.count_pos_iff.2 (List.mem_range'_1.2 hu)
      rw [if_pos hu]
      omega
    · rw [if_neg hu, List.count_eq_zero.2 (fun hm => hu (List.mem_range'_1.1 hm))]
      omega
  · intro u hu
    have hu' : c.nextUid + fs.length ≤ u := hu
    refine ⟨?_, by simpa using (hri.fresh u (by omega)).2⟩
    simp only
    rw [if_neg (by omega)]
    exact (hri.fresh u (by omega)).1
  · intro u hu
    have hu' : u < c.nextUid + fs.length := hu
    have e : (log ++ [Entry.called c.nextId (.subscribe (numbered c.nextUid fs))]).count (.cleanup u) = log.count (.cleanup u) := by
      simp [List.count_append]
    rw [e]
    simp only
    by_cases hn : c.nextUid ≤ u
    · have hp : c.nextUid ≤ u ∧ u < c.nextUid + fs.length := ⟨hn, hu'⟩
      simp only [if_pos hp]
      rw [List.count_eq_zero.2 (hri.fresh u hn).2]
      rfl
    · have hp : ¬ (c.nextUid ≤ u ∧ u < c.nextUid + fs.length) := fun hx => hn hx.1
      simp only [if_neg hp]
      exact hri.cleaned u (by omega)
  · intro u; simpa using hri.valid u
  · intro id gs hm
    rcases hcalled _ _ hm with hm | ⟨rfl, rfl⟩
    · rcases hri.pend id gs hm with ⟨y, hy, h1⟩ | ⟨gs, ok, ha⟩
      · exact .inl ⟨y, List.mem_append_left _ hy, h1⟩
      · exact .inr ⟨gs, ok, List.mem_append_left _ ha⟩
    · exact .inl ⟨_, List.mem_append_right _ (List.mem_singleton.2 rfl), rfl, rfl, by rw [hholds, numbered_uids]⟩
  · intro y hy gs ok hm
    rcases List.mem_append.1 hm with hm | hm
    · rcases List.mem_append.1 hy with hy | hy
      · exact hri.ans y hy gs ok hm
      · have := hri.anslt _ _ _ hm
        rw [List.mem_singleton.1 hy] at this
        exact Nat.lt_irrefl _ this
    · simp at hm
  · intro y hy hky
    rcases List.mem_append.1 hy with hy | hy
    · obtain ⟨fs, f1, f2⟩ := hri.own y hy hky
      exact ⟨fs, List.mem_append_left _ f1, f2⟩
    · rw [List.mem_singleton.1 hy]
      exact ⟨_, List.mem_append_right _ (List.mem_singleton.2 rfl), by rw [hholds, numbered_uids]⟩
  · intro id gs e hm he
    show e.2.2 < c.nextUid + fs.length
    rcases hcalled _ _ hm with hm | ⟨rfl, rfl⟩
    · have := hri.uid id gs e hm he
      omega
    · exact (huids e he).2
  · intro id gs id' gs' e e' h1 h2 he he' heq
    rcases hcalled _ _ h1 with h1 | ⟨rfl, rfl⟩ <;> rcases hcalled _ _ h2 with h2 | ⟨rfl, rfl⟩
    · exact hri.uniq id gs id' gs' e e' h1 h2 he he' heq
    · have a := hri.uid id gs e h1 he
      have b := huids e' he'
      omega
    · have a := hri.uid id' gs' e' h2 he'
      have b := huids e he
      omega
    · rfl
  · intro y hy
    show y.id < c.nextId + 1
    rcases List.mem_append.1 hy with hy | hy
    · have := hri.ids y hy
      omega
    · rw [List.mem_singleton.1 hy]
      exact Nat.lt_succ_self _
  · intro id gs ok hm
    show id < c.nextId + 1
    rcases List.mem_append.1 hm with hm | hm
    · have := hri.anslt id gs ok hm
      omega
    · simp at hm

/-- A step that changes no request and no count. -/
theorem ri_completed {c : Conn} {log : List Entry} (hri : RI c log) (hnd : (c.requests.map (·.id)).Nodup) {r r' : Request}
    (hr : r ∈ c.requests) (hs : Same r r') (ok : Bool) : RI (c.complete r' ok).1 (log ++ (c.complete r' ok).2) :=
  ri_complete hri hnd rfl rfl rfl rfl hr hs ok (fun _ => 0) (by simp) (by simp)

theorem ri_completeAll (rs : List Request) : ∀ {c : Conn} {log : List Entry}, RI c log → (c.requests.map (·.id)).Nodup →
    (rs.map (·.id)).Nodup → (∀ r ∈ rs, r ∈ c.requests) →
    RI (c.completeAll false rs).1 (log ++ (c.completeAll false rs).2) ∧
    (c.completeAll false rs).1.table = c.table ∧
    ((c.completeAll false rs).1.requests = c.requests.filter fun x => ∀ r ∈ rs, x.id ≠ r.id) := by
  induction rs with
  | nil =>
    intro c log h _ _ _
    refine ⟨by simpa [Conn.completeAll] using h, rfl, ?_⟩
    simp only [Conn.completeAll]
    exact (List.filter_eq_self.2 (by simp)).symm
  | cons r rs ih =>
    intro c log h hnd hrs hin
    obtain ⟨refs, e⟩ := complete_conn c r false
    have h1 := ri_completed h hnd (hin r (by simp)) (.refl r) false
    simp only [List.map_cons, List.nodup_cons, List.mem_map, not_exists, not_and] at hrs
    have hreq : (c.complete r false).1.requests = c.requests.filter (·.id ≠ r.id) := by rw [e]
    obtain ⟨i1, i2, i3⟩ := ih h1 (by rw [hreq]; exact (List.filter_sublist.map _).nodup hnd) hrs.2 (by
      intro x hx
      rw [hreq, List.mem_filter]
      exact ⟨hin x (by simp [hx]), by simpa using hrs.1 x hx⟩)
    simp only [Conn.completeAll]
    refine ⟨by rw [← List.append_assoc]; exact i1, i2.trans (by rw [e]), ?_⟩
    rw [i3, hreq, List.filter_filter]
    apply List.filter_congr
    intro x _
    simp [Bool.and_comm]

theorem subAt_held {t : Tree} {p : Path} {s : Sub} (h : subAt t.nodes p = some s) (hn : t.nodes.Nodup) {u : Nat} (hc : s.cleanup = true)
    (hu : s.userdata = some u) : u ∈ held t.nodes := by
  rw [Props.held_iterate, List.mem_flatMap]
  refine ⟨(p, s), (Props.mem_iterate hn).2 h, ?_⟩
  unfold Props.disposal
  rw [if_pos hc, hu]
  simp

theorem held_subAt {t : Tree} (hn : t.nodes.Nodup) {u : Nat} (h : u ∈ held t.nodes) :
    ∃ p s, subAt t.nodes p = some s ∧ s.cleanup = true ∧ s.userdata = some u := by
  rw [Props.held_iterate, List.mem_flatMap] at h
  obtain ⟨⟨p, s⟩, h1, h2⟩ := h
  refine ⟨p, s, (Props.mem_iterate hn).1 h1, ?_⟩
  unfold Props.disposal at h2
  split at h2
  · next hc => exact ⟨hc, by simpa using h2⟩
  · cases h2

/-- The topics in the table are those in effect. -/
theorem held_iff {c : Conn} {log : List Entry} (h : Inv c log) (u : Nat) :
    u ∈ held c.table.nodes ↔ ∃ f q, (book tableKey log).subs f = some (u, q) := by
  constructor
  · intro hu
    obtain ⟨p, s, h1, _, h3⟩ := held_subAt h.tree.nodup hu
    obtain ⟨f, rfl⟩ := h.paths p s h1
    have := h.rep f
    rw [h1] at this
    cases hb : (book tableKey log).subs f with
    | none => rw [hb] at this; cases this
    | some e =>
      rw [hb, Option.map_some] at this
      injection this with this
      rw [this] at h3
      have : e.1 = u := by simpa [toSub] using h3
      exact ⟨f, e.2, by rw [hb, ← this]⟩
  · rintro ⟨f, q, hb⟩
    have := h.rep f
    rw [hb] at this
    exact subAt_held this h.tree.nodup rfl rfl

/-- What `publish` calls. -/
theorem publish_calls {c : Conn} {log : List Entry} (h : Inv c log) {topic : Bytes} (ht : isValidTopic topic = true) :
    ∃ calls, publish c.table topic = some calls ∧
      (∀ e ∈ calls, ∃ f x, split 47 f = e.1 ∧ (book tableKey log).subs f = some x ∧ e.2 = toSub x ∧ Matches (split 47 f) (split 47 topic)) ∧
      ∀ f, calls.filter (fun e => e.1 = split 47 f) =
        if TreeMatch (split 47 f) (split 47 topic) then ((book tableKey log).subs f).toList.map (fun x => (split 47 f, toSub x)) else [] := by
  have hw := Props.noWild_of_topic ((Props.C08_topic topic).1 ht)
  obtain ⟨calls, h1, _, h3⟩ := publishGo_spec h.tree (split 47 topic) [] hw
  simp only [List.nil_append] at h3
  have hf : ∀ f, calls.filter (fun e => e.1 = split 47 f) =
        if TreeMatch (split 47 f) (split 47 topic) then ((book tableKey log).subs f).toList.map (fun x => (split 47 f, toSub x)) else [] := by
    intro f
    rw [h3, h.rep]
    cases (book tableKey log).subs f <;> rfl
  refine ⟨calls, h1, ?_, hf⟩
  rintro ⟨p, s⟩ hc
  have hm : (p, s) ∈ calls.filter (fun e => e.1 = p) := by simp [hc]
  rw [h3] at hm
  split at hm
  · next htm =>
    simp only [List.mem_map, Option.mem_toList] at hm
    obtain ⟨s', hs, e⟩ := hm
    obtain ⟨f, rfl⟩ := h.paths _ _ hs
    cases e
    have hr := h.rep f
    rw [hs] at hr
    cases hb : (book tableKey log).subs f with
    | none => rw [hb] at hr; cases hr
    | some x =>
      rw [hb, Option.map_some] at hr
      injection hr with hr
      exact ⟨f, x, rfl, hb, hr, ((Props.treeMatch_iff _ _ (h.hash f (by rw [hb]; simp)) (split_ne_nil _ _) hw).1 htm).1⟩
  · simp at hm

theorem ri_message {c : Conn} {log : List Entry} (h : Inv c log) (hri : RI c log) {topic : Bytes} (ht : isValidTopic topic = true) :
    ∃ calls, publish c.table topic = some calls ∧
      step c (.message topic) = (c, [.delivered topic (calls.filterMap (·.2.userdata))]) ∧
      ∀ u ∈ calls.filterMap (·.2.userdata), c.refs u ≠ 0 := by
  obtain ⟨calls, h1, h2, _⟩ := publish_calls h ht
  have hu : ∀ u ∈ calls.filterMap (·.2.userdata), c.refs u ≠ 0 := by
    intro u hu
    rw [List.mem_filterMap] at hu
    obtain ⟨e, he, hue⟩ := hu
    obtain ⟨f, x, _, hb, hx, _⟩ := h2 e he
    have : x.1 = u := by rw [hx] at hue; simpa [toSub] using hue
    have hm := List.count_pos_iff.2 ((held_iff h u).2 ⟨f, x.2, by rw [hb, ← this]⟩)
    obtain ⟨leak, l1, _⟩ := hri.count
    have := l1 u
    omega
  refine ⟨calls, h1, ?_, hu⟩
  simp only [step, h1]
  have : c.uses (calls.filterMap (·.2.userdata)) = [] := by
    unfold Conn.uses
    rw [List.flatMap_eq_nil_iff]
    intro u hx
    rw [if_neg (hu u hx)]
  rw [this]
  rfl

theorem zipWith_uids (ts : List Topic) : ∀ (codes : List Nat), ts.length = codes.length →
    (ts.zipWith (fun x q => { x with qos := q }) codes).filterMap (·.uid) = ts.filterMap (·.uid) := by
  induction ts with
  | nil => intro codes _; rfl
  | cons x ts ih =>
    intro codes hl
    cases codes with
    | nil => cases hl
    | cons q codes =>
      simp only [List.zipWith_cons_cons, List.filterMap_cons]
      rw [ih codes (by simpa using hl)]

theorem cleanUp_held (t : Tree) : (cleanUp t).cleaned.drop t.cleaned.length = held t.nodes := by
  have e : t.nodes.filter (fun e => List.isPrefixOf [] e.1) = t.nodes := List.filter_eq_self.2 fun _ _ => by simp
  rw [cleanUp, cleanedBelow, e]
  simp [held]

theorem ri_destroy {c : Conn} {log : List Entry} (h : Inv c log) (hri : RI c log) :
    RI (step c .destroy).1 (log ++ (step c .destroy).2) ∧ (step c .destroy).1.requests = [] ∧ (step c .destroy).1.table.nodes = [] := by
  obtain ⟨leak, l1, l2⟩ := hri.count
  have h1 : RI ({ c with alive := false }.setTable (cleanUp c.table)).1 (log ++ ({ c with alive := false }.setTable (cleanUp c.table)).2) := by
    refine ri_next hri c.refs (held c.table.nodes) [] [] ?_ (by simp) ?_ rfl rfl (fun _ => Iff.rfl) ?_ ?_ ?_ ?_ (by simp)
    · simp only [Conn.setTable, cleanUp_held]; simp
    · simp only [Conn.setTable, cleanUp_held]
    · intro u; have := l1 u; omega
    · refine ⟨leak, ?_, fun u hu => (l2 u hu).append _⟩
      intro u
      have := l1 u
      simp only [Conn.setTable, cleanUp, held]
      simp only [held] at this
      simp
      omega
    · intro r hr; exact ⟨r, hr, .refl r, by simp⟩
    · intro r hr _; exact .inl ⟨r, hr, .refl r⟩
  obtain ⟨i1, i2, i3⟩ := ri_completeAll c.requests h1 h.nodup h.nodup (fun r hr => hr)
  simp only [step]
  refine ⟨by rw [← List.append_assoc]; exact i1, ?_, by rw [i2]; rfl⟩
  rw [i3, List.filter_eq_nil_iff]
  intro x hx
  simp only [decide_eq_true_eq]
  intro hn
  exact hn x hx rfl

theorem ri_step {c : Conn} {log : List Entry} (h : Inv c log) (hri : RI c log) {e : Event} (hen : Enabled c e) :
    RI (step c e).1 (log ++ (step c e).2) := by
  cases e with
  | subscribe fs => exact ri_subscribe hri fs
  | resubscribe => exact ri_called hri _ _ rfl rfl (by simp) (by simp)
  | unsubscribe f => exact ri_called hri _ _ rfl rfl (by simp) (by simp)
  | send id pick order w =>
    obtain ⟨r, hr, ho, hp⟩ := hen
    simp only [step, hr]
    split
    · next hk => exact ri_sendSubscribe h hri (request_mem hr).1 hk pick w
    · next hk => exact ri_sendResubscribe h hri (request_mem hr).1 hk order w
    · next f hk => exact ri_sendUnsubscribe h hri (request_mem hr).1 pick w
  | suback id codes =>
    obtain ⟨r, hr, _⟩ := hen
    simp only [step, hr]
    unfold Conn.suback
    split
    · exact ri_same hri _ (by simp [Entry.quiet]) (by simp)
    · next hl =>
      have hs : Same r { r with topics := r.topics.zipWith (fun x q => { x with qos := q }) codes } := by
        refine ⟨rfl, rfl, ?_⟩
        unfold holds
        simp only
        split
        · exact zipWith_uids _ _ (by simpa using hl)
        · rfl
      exact ri_completed hri h.nodup (request_mem hr).1 hs true
  | unsuback id =>
    obtain ⟨r, f, hr, _⟩ := hen
    simp only [step, hr]
    exact ri_completed hri h.nodup (request_mem hr).1 (.refl r) true
  | fail id =>
    obtain ⟨r, hr⟩ := hen
    simp only [step, hr]
    exact ri_completed hri h.nodup (request_mem hr).1 (.refl r) false
  | message topic =>
    obtain ⟨calls, _, h2, _⟩ := ri_message h hri hen
    rw [h2]
    exact ri_same hri _ (by simp [Entry.quiet]) (by simp)
  | destroy => exact (ri_destroy h hri).1

theorem reachable_ri {c : Conn} {log : List Entry} (h : Reachable c log) : RI c log := by
  induction h with
  | init => exact ri_init
  | step e h ha hen ih => exact ri_step (reachable_inv h ha) ih hen

theorem step_alive {c : Conn} (ha : c.alive = true) {e : Event} (hen : Enabled c e) :
    (step c e).1.alive = true ∨ e = .destroy := by
  have hc : ∀ (c' : Conn) r ok, c'.alive = true → (c'.complete r ok).1.alive = true := by
    intro c' r ok hal
    obtain ⟨refs, e⟩ := complete_conn c' r ok
    rw [e]; exact hal
  cases e with
  | destroy => exact .inr rfl
  | subscribe fs => exact .inl ha
  | resubscribe => exact .inl ha
  | unsubscribe f => exact .inl ha
  | send id pick order w =>
    obtain ⟨r, hr, _⟩ := hen
    simp only [step, hr]
    left
    split
    · unfold Conn.sendSubscribe
      simp only
      split
      · split
        · exact ha
        · exact hc _ _ _ ha
      · split
        · exact ha
        · exact hc _ _ _ ha
    · unfold Conn.sendResubscribe
      simp only
      split
      · exact hc _ _ _ ha
      · split
        · exact ha
        · exact hc _ _ _ ha
    · unfold Conn.sendUnsubscribe
      split
      · split
        · exact ha
        · exact hc _ _ _ ha
      · split
        · exact hc _ _ _ ha
        · split
          · exact ha
          · exact hc _ _ _ ha
  | suback id codes =>
    obtain ⟨r, hr, _⟩ := hen
    simp only [step, hr]
    left
    unfold Conn.suback
    split
    · exact ha
    · exact hc _ _ _ ha
  | unsuback id =>
    obtain ⟨r, f, hr, _⟩ := hen
    simp only [step, hr]
    exact .inl (hc _ _ _ ha)
  | fail id =>
    obtain ⟨r, hr⟩ := hen
    simp only [step, hr]
    exact .inl (hc _ _ _ ha)
  | message topic =>
    left
    simp only [step]
    split <;> exact ha

/-- After destruction nothing is left. -/
theorem reachable_dead {c : Conn} {log : List Entry} (h : Reachable c log) (hd : c.alive = false) :
    c.requests = [] ∧ c.table.nodes = [] := by
  cases h with
  | init => cases hd
  | step e h ha hen =>
    rcases step_alive ha hen with hx | rfl
    · rw [hx] at hd; cases hd
    · exact (ri_destroy (reachable_inv h ha) (reachable_ri h)).2

end Mqtt.Subs311
