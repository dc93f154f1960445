import Verif.Lemmas.Subs311
import Verif.Props.C11

/-!
Which strings the requests of an MQTT 3.1.1 connection refer to (C83).
-/
namespace Mqtt.Subs311
open Mqtt Mqtt.Spec Mqtt.TopicTree

theorem nodup_of_map {α β : Type} (f : α → β) {l : List α} (h : (l.map f).Nodup) : l.Nodup := by
  rw [List.Nodup, List.pairwise_map] at h
  exact h.imp (fun hab e => hab (congrArg f e))

theorem packet_updates (key : Bytes → Option Bytes) (b : Book) (id : Nat) : b.updates ≤ (b.packet key id).updates := by
  unfold Book.packet
  split
  · exact Nat.le_refl _
  · split <;> simp

theorem note_updates (key : Bytes → Option Bytes) (b : Book) (e : Entry) : b.updates ≤ (b.note key e).updates := by
  cases e <;> first | exact Nat.le_refl _ | exact packet_updates key b _

theorem fold_updates (key : Bytes → Option Bytes) (es : List Entry) : ∀ b : Book, b.updates ≤ (es.foldl (Book.note key) b).updates := by
  induction es with
  | nil => intro b; exact Nat.le_refl _
  | cons e es ih => intro b; exact Nat.le_trans (note_updates key b e) (ih _)

theorem book_updates (key : Bytes → Option Bytes) (a b : List Entry) : (book key a).updates ≤ (book key (a ++ b)).updates := by
  rw [book_append]; exact fold_updates key b _

theorem note_seen (key : Bytes → Option Bytes) (b : Book) (e : Entry) {id : Nat} (h : id ∈ b.seen) : id ∈ (b.note key e).seen := by
  have hp : ∀ x, id ∈ (b.packet key x).seen := by
    intro x
    unfold Book.packet
    split
    · exact h
    · split <;> simp [h]
  cases e <;> first | exact h | exact hp _

theorem fold_seen (key : Bytes → Option Bytes) (es : List Entry) {id : Nat} : ∀ b : Book, id ∈ b.seen → id ∈ (es.foldl (Book.note key) b).seen := by
  induction es with
  | nil => intro b h; exact h
  | cons e es ih => intro b h; exact ih _ (note_seen key b e h)

theorem sent_seen {key : Bytes → Option Bytes} {log : List Entry} {id : Nat} {fs : List (Option Bytes × Nat)}
    (h : Entry.sent id fs ∈ log) : id ∈ (book key log).seen := by
  obtain ⟨a, b, rfl⟩ := List.append_of_mem h
  rw [book_append, List.foldl_cons]
  exact fold_seen key b _ packet_seen

theorem Tame.left {key : Bytes → Option Bytes} {a b : List Entry} (h : Tame key (a ++ b)) : Tame key a := by
  intro pre e post he
  exact h pre e (post ++ b) (by rw [he]; simp)

/-- Old strings read as before. -/
def SameReads (t t' : Tree) : Prop :=
  t.strings.length ≤ t'.strings.length ∧ ∀ s, s < t.strings.length → readCursor t' (.table s) = readCursor t (.table s)

theorem SameReads.refl (t : Tree) : SameReads t t := ⟨Nat.le_refl _, fun _ _ => rfl⟩

theorem sameReads_aborted {t : Tree} (h : Closed t.nodes) (steps : List TxStep) : SameReads t (aborted t steps) := by
  obtain ⟨_, extra, F, h1, h2, _, h4⟩ := aborted_strings steps t h
  refine ⟨by rw [h1, List.length_append]; omega, ?_⟩
  intro s hs
  have hm : s ∈ (aborted t steps).freed ↔ s ∈ t.freed := by
    rw [h2.mem_iff, List.mem_append]
    constructor
    · rintro (hx | hx)
      · have := (h4 s hx).1; omega
      · exact hx
    · exact .inr
  unfold readCursor
  simp only [hm, h1]
  rw [List.getElem?_append_left hs]

/-- A request's topics refer to strings of the table that exist or existed. -/
def Known (t : Tree) (r : Request) : Prop := ∀ x ∈ r.topics, ∃ s, x.cur = .table s ∧ s < t.strings.length

theorem SameReads.topics {t t' : Tree} (h : SameReads t t') {r : Request} (hk : Known t r) :
    readTopics t' r.topics = readTopics t r.topics := by
  unfold readTopics
  apply List.map_congr_left
  intro x hx
  obtain ⟨s, e, hs⟩ := hk x hx
  rw [e, h.2 s hs]

structure SI (c : Conn) (log : List Entry) : Prop where
  sinv : SInv c.table []
  known : ∀ r ∈ c.requests, r.kind = .resubscribe → Known c.table r
  once : ∀ r ∈ c.requests, r.kind = .resubscribe → ∀ pre fs post, log = pre ++ .sent r.id fs :: post →
    r.id ∉ (book tableKey pre).seen → (∀ gs, Entry.sent r.id gs ∉ post) →
    (book tableKey log).updates = (book tableKey pre).updates → readTopics c.table r.topics = fs

theorem si_init : SI {} [] := by
  constructor
  · exact sinv_init
  · simp
  · simp

theorem snoc_split {log pre post out : List Entry} {e : Entry} (h : log ++ out = pre ++ e :: post) (he : e ∉ out) :
    ∃ post', log = pre ++ e :: post' ∧ post = post' ++ out := by
  rcases List.append_eq_append_iff.1 h with ⟨a, h1, h2⟩ | ⟨a, h1, h2⟩
  · exact absurd (by rw [h2]; simp) he
  · cases a with
    | nil => exact absurd (by rw [List.nil_append] at h2; rw [← h2]; simp) he
    | cons x a => injection h2 with hx h2; subst hx; exact ⟨a, h1, h2⟩

/-- Steps that leave the resubscriptions alone. -/
theorem si_same {c c' : Conn} {log out : List Entry} (h : SI c log) (hs : SameReads c.table c'.table) (hsinv : SInv c'.table [])
    (hr : ∀ r ∈ c'.requests, r.kind = .resubscribe → r ∈ c.requests ∧ ∀ gs, Entry.sent r.id gs ∉ out) : SI c' (log ++ out) := by
  constructor
  · exact hsinv
  · intro r hr' hk x hx
    obtain ⟨s, e, hl⟩ := h.known r (hr r hr' hk).1 hk x hx
    exact ⟨s, e, Nat.lt_of_lt_of_le hl hs.1⟩
  · intro r hr' hk pre fs post he h1 h2 h3
    obtain ⟨hm, hno⟩ := hr r hr' hk
    obtain ⟨post', e1, e2⟩ := snoc_split he (hno fs)
    rw [hs.topics (h.known r hm hk)]
    refine h.once r hm hk pre fs post' e1 h1 (fun gs hg => h2 gs (by rw [e2]; simp [hg])) ?_
    have a := book_updates tableKey pre (.sent r.id fs :: post')
    rw [← e1] at a
    have b := book_updates tableKey log out
    omega

/-- Steps that change the table. -/
theorem si_updated {c c' : Conn} {log out : List Entry} (h : SI c log) (hsinv : SInv c'.table [])
    (hlen : c.table.strings.length ≤ c'.table.strings.length)
    (hu : (book tableKey log).updates < (book tableKey (log ++ out)).updates)
    (hr : ∀ r ∈ c'.requests, r.kind = .resubscribe → r ∈ c.requests ∧ ∀ gs, Entry.sent r.id gs ∉ out) : SI c' (log ++ out) := by
  constructor
  · exact hsinv
  · intro r hr' hk x hx
    obtain ⟨s, e, hl⟩ := h.known r (hr r hr' hk).1 hk x hx
    exact ⟨s, e, Nat.lt_of_lt_of_le hl hlen⟩
  · intro r hr' hk pre fs post he h1 h2 h3
    obtain ⟨hm, hno⟩ := hr r hr' hk
    obtain ⟨post', e1, e2⟩ := snoc_split he (hno fs)
    have a := book_updates tableKey pre (.sent r.id fs :: post')
    rw [← e1] at a
    omega

theorem neutral_no_sent {out : List Entry} (h : ∀ e ∈ out, e.neutral = true) (id : Nat) : ∀ gs, Entry.sent id gs ∉ out := by
  intro gs hg
  have := h _ hg
  cases this

theorem si_complete {c : Conn} {log : List Entry} (h : SI c log) (r : Request) (ok : Bool) :
    SI (c.complete r ok).1 (log ++ (c.complete r ok).2) := by
  obtain ⟨refs, e⟩ := complete_conn c r ok
  refine si_same h (by rw [e]; exact .refl _) (by rw [e]; exact h.sinv) ?_
  intro x hx _
  rw [e] at hx
  exact ⟨(List.mem_filter.1 hx).1, neutral_no_sent (complete_neutral c r ok) _⟩

theorem commitAction_strings (pick : List Nat → Nat) (t : Tree) (a : Action) : (commitAction pick t a).strings = t.strings := by
  unfold commitAction
  split
  · unfold commitAdd
    split
    · rfl
    · simp only
      split
      · rfl
      · split <;> rfl
  · unfold commitAdd
    split
    · rfl
    · simp only
      split
      · rfl
      · split <;> rfl
  · unfold commitRemove
    split
    · rfl
    · simp only
      split <;> rfl

theorem commit_strings (pick : List Nat → Nat) (as : List Action) : ∀ t : Tree, (commit pick t as).strings = t.strings := by
  induction as with
  | nil => intro t; rfl
  | cons a as ih => intro t; exact (ih _).trans (commitAction_strings pick t a)

theorem txInserts_strings (fs : List (Bytes × Sub)) : ∀ t : Tree, t.strings.length ≤ (txInserts t fs).1.strings.length := by
  induction fs with
  | nil => intro t; exact Nat.le_refl _
  | cons e fs ih =>
    intro t
    obtain ⟨f, s⟩ := e
    refine Nat.le_trans ?_ (ih (txInsert t f s).1)
    rw [(txInsert_parts t f s).1]
    simp

theorem subscribe_strings (pick : List Nat → Nat) (t : Tree) (fs : List (Bytes × Sub)) :
    t.strings.length ≤ (subscribe pick t fs).strings.length := by
  unfold subscribe
  rw [commit_strings]
  exact txInserts_strings fs t

theorem unsubscribe_strings (pick : List Nat → Nat) (t : Tree) (f : Bytes) : (unsubscribe pick t f).strings = t.strings := by
  unfold unsubscribe
  split
  · rfl
  · exact commit_strings _ _ _

theorem found_known {t : Tree} (h : SInv t []) (hn : t.nodes.Nodup) {e : Nat × Nat} (he : e ∈ found t) : e.1 < t.strings.length := by
  unfold found at he
  rw [List.mem_filterMap] at he
  obtain ⟨⟨p, n⟩, hm, hs⟩ := he
  rw [Option.map_eq_some_iff] at hs
  obtain ⟨s, _, rfl⟩ := hs
  exact (h.ref p n ((AMap.mem_iff_get hn).1 hm)).2.1

theorem update_resub {c : Conn} {r0 r' x : Request} (hid : r'.id = r0.id)
    (hk0 : r'.kind ≠ .resubscribe) (hx : x ∈ (c.update r').requests) (hk : x.kind = .resubscribe) : x ∈ c.requests ∧ x.id ≠ r0.id := by
  rcases mem_update hx with rfl | ⟨hx, hne⟩
  · exact absurd hk hk0
  · exact ⟨hx, by rw [← hid]; exact hne⟩

theorem si_sendSubscribe {c : Conn} {log : List Entry} (h : Inv c log) (hsi : SI c log) {r : Request} (hr : r ∈ c.requests) (hk : r.kind = .subscribe)
    (pick : List Nat → Nat) (w : Bool) (ht : Tame tableKey (log ++ (c.sendSubscribe pick r w).2)) :
    SI (c.sendSubscribe pick r w).1 (log ++ (c.sendSubscribe pick r w).2) := by
  obtain ⟨fs, hl, htop, hval, hpk, hup⟩ := (h.reqs r hr).sub hk
  revert ht
  unfold Conn.sendSubscribe
  simp only
  split
  · split
    · intro _
      refine si_same hsi (.refl _) hsi.sinv ?_
      intro x hx hkx
      obtain ⟨a, b⟩ := update_resub (r0 := r) (r' := { r with packet := some _ }) rfl (by simp [hk]) hx hkx
      exact ⟨a, by simp [b]⟩
    · intro _; exact si_complete hsi _ _
  · next hu =>
    have hns : r.id ∉ (book tableKey log).seen := fun e => hu (hup.2 e)
    split
    · next hw =>
      rw [Bool.and_eq_true] at hw
      intro ht
      have htame : TamePacket tableKey (book tableKey log) r.id := ht log _ _ rfl
      have hnd := (htame hns).1 fs hl
      obtain ⟨ha1, ha2⟩ := insertable_all r.topics hw.1
      refine si_updated hsi ?_ (subscribe_strings _ _ _) ?_ ?_
      · refine sinv_subscribe pick hsi.sinv h.tree.closed _ ?_
        simp only [List.map_map]
        have : (((insertable r.topics).1.map ((fun e : Bytes × Sub => e.1) ∘ fun e : Bytes × Topic => (e.1, e.2.sub))).map some).Nodup := by
          simp only [List.map_map]
          rw [show ((some ∘ (fun e : Bytes × Sub => e.1) ∘ fun e : Bytes × Topic => (e.1, e.2.sub)) : Bytes × Topic → Option Bytes) = (fun e => some e.1) from rfl, ha2, htop, List.map_map]
          exact hnd
        exact nodup_of_map _ this
      · rw [book_sent _ _ _ _ (setTable_neutral _ _)]
        unfold Book.packet
        rw [if_neg hns, hl]
        simp
      · intro x hx hkx
        obtain ⟨a, b⟩ := update_resub (r0 := r) (r' := { r with packet := some _, updated := true }) rfl (by simp [hk]) hx hkx
        refine ⟨a, ?_⟩
        intro gs hg
        rcases List.mem_cons.1 hg with hg | hg
        · injection hg with hg; exact b hg
        · exact neutral_no_sent (setTable_neutral _ _) _ gs hg
    · intro _
      have hsi : SI c (log ++ [.unsent r.id]) := by
        refine si_same hsi (.refl _) hsi.sinv ?_
        intro x hx _
        exact ⟨hx, by simp⟩
      rw [List.append_cons, ← List.append_assoc]
      apply si_complete
      refine si_same hsi (sameReads_aborted h.tree.closed _) (sinv_aborted hsi.sinv h.tree.closed _) ?_
      intro x hx _
      exact ⟨hx, neutral_no_sent (setTable_neutral _ _) _⟩

theorem si_sendUnsubscribe {c : Conn} {log : List Entry} (h : Inv c log) (hsi : SI c log) {r : Request} (hr : r ∈ c.requests) {f : Bytes}
    (hk : r.kind = .unsubscribe f) (pick : List Nat → Nat) (hp : ∀ l, l ≠ [] → pick l ∈ l) (w : Bool)
    (ht : Tame tableKey (log ++ (c.sendUnsubscribe pick r f w).2)) :
    SI (c.sendUnsubscribe pick r f w).1 (log ++ (c.sendUnsubscribe pick r f w).2) := by
  obtain ⟨hl, hv, hup⟩ := (h.reqs r hr).unsub f hk
  revert ht
  unfold Conn.sendUnsubscribe
  split
  · split
    · intro _
      refine si_same hsi (.refl _) hsi.sinv ?_
      intro x hx _
      exact ⟨hx, by simp⟩
    · intro _; exact si_complete hsi _ _
  · next hu =>
    have hns : r.id ∉ (book tableKey log).seen := fun e => hu (hup.2 e)
    cases hkey : tableKey f with
    | none => intro _; exact si_complete hsi _ _
    | some k =>
      simp only
      split
      · intro ht
        have htame : TamePacket tableKey (book tableKey log) r.id := ht log _ _ rfl
        have hleaf := (htame hns).2 f k
        refine si_updated hsi ?_ (Nat.le_of_eq (congrArg List.length (unsubscribe_strings _ _ _).symm)) ?_ ?_
        · refine sinv_unsubscribe pick hp hsi.sinv h.tree k ?_
          rw [hasChild_false_iff]
          intro l
          cases hg : c.table.nodes.get (split 47 k ++ [l]) with
          | none => rfl
          | some n =>
            exfalso
            obtain ⟨b, hb⟩ := Props.exists_bound c.table.nodes
            obtain ⟨post, s, hs⟩ := Props.deeper_subscription h.tree b _ n (fun e he => by have := hb e he; omega) hg
            obtain ⟨g, hgf⟩ := h.paths _ _ hs
            have hrg := h.rep g
            rw [← hgf, hs] at hrg
            refine hleaf g l post hl hkey ?_ (split 47 k) (split_levels k) ?_
            · intro e; rw [e] at hrg; cases hrg
            · rw [levels_iff, ← hgf]; simp
        · rw [book_sentUnsubscribe _ _ _ _ (setTable_neutral _ _)]
          unfold Book.packet
          rw [if_neg hns, hl]
          simp
        · intro x hx hkx
          obtain ⟨a, b⟩ := update_resub (r0 := r) (r' := { r with updated := true }) rfl (by simp [hk]) hx hkx
          refine ⟨a, ?_⟩
          intro gs hg
          rcases List.mem_cons.1 hg with hg | hg
          · cases hg
          · exact neutral_no_sent (setTable_neutral _ _) _ gs hg
      · intro _; exact si_complete hsi _ _

theorem si_sendResubscribe {c : Conn} {log : List Entry} (h : Inv c log) (hsi : SI c log) {r : Request} (hr : r ∈ c.requests)
    (hk : r.kind = .resubscribe) (order : List (Nat × Nat)) (ho : order.Perm (found c.table)) (w : Bool) :
    SI (c.sendResubscribe order r w).1 (log ++ (c.sendResubscribe order r w).2) := by
  obtain ⟨hl, hpk, _⟩ := (h.reqs r hr).resub hk
  unfold Conn.sendResubscribe
  simp only
  split
  · exact si_complete hsi _ _
  · split
    · constructor
      · exact hsi.sinv
      · intro x hx hkx
        rcases mem_update hx with rfl | ⟨hx, _⟩
        · intro y hy
          simp only [List.mem_map] at hy
          obtain ⟨e, he, rfl⟩ := hy
          exact ⟨e.1, rfl, found_known hsi.sinv h.tree.nodup (ho.mem_iff.1 he)⟩
        · exact hsi.known x hx hkx
      · intro x hx hkx pre fs post he h1 h2 h3
        have hupd : (book tableKey (log ++ [.sent r.id ((r.packet.getD ((order.map fun e => { cur := .table e.1, qos := e.2, uid := none : Topic }).map fun x => (x.cur, x.qos))).map fun e => (readCursor c.table e.1, e.2))])).updates
            = (book tableKey log).updates := by
          rw [book_sent _ _ _ _ (by simp)]
          exact (packet_same (.inr hl)).2
        rcases mem_update hx with rfl | ⟨hx, hne⟩
        · rcases List.append_eq_append_iff.1 he with ⟨a, e1, e2⟩ | ⟨a, e1, e2⟩
          · cases a with
            | nil =>
              rw [List.nil_append] at e2
              injection e2 with e2 e3
              injection e2 with _ e2
              rw [List.append_nil] at e1
              subst e1
              rw [← e2, hpk.2 h1]
              simp only [readTopics, Option.getD_none, List.map_map]
              rfl
            | cons y a =>
              injection e2 with _ e2
              have := congrArg List.length e2
              simp at this
          · cases a with
            | nil =>
              rw [List.nil_append] at e2
              injection e2 with e2 e3
              injection e2 with _ e2
              rw [List.append_nil] at e1
              subst e1
              rw [e2, hpk.2 h1]
              simp only [readTopics, Option.getD_none, List.map_map]
              rfl
            | cons y a =>
              injection e2 with _ e2
              exfalso
              exact h2 _ (by rw [e2]; exact List.mem_append_right _ (List.mem_singleton.2 rfl))
        · obtain ⟨post', e1, e2⟩ := snoc_split he (by simp; intro e; exact absurd e (by exact hne))
          refine hsi.once x hx hkx pre fs post' e1 h1 (fun gs hg => h2 gs (by rw [e2]; simp [hg])) ?_
          rw [← h3, hupd]
    · exact si_complete hsi _ _

theorem si_step {c : Conn} {log : List Entry} (h : Inv c log) (hsi : SI c log) {e : Event} (hen : Enabled c e)
    (ht : Tame tableKey (log ++ (step c e).2)) : SI (step c e).1 (log ++ (step c e).2) ∨ e = .destroy := by
  cases e with
  | subscribe fs =>
    refine .inl (si_same hsi (.refl _) hsi.sinv ?_)
    intro x hx hk
    rcases List.mem_append.1 hx with hx | hx
    · exact ⟨hx, by simp [step]⟩
    · simp at hx; rw [hx] at hk; cases hk
  | resubscribe =>
    refine .inl ?_
    constructor
    · exact hsi.sinv
    · intro x hx hk
      rcases List.mem_append.1 hx with hx | hx
      · exact hsi.known x hx hk
      · simp at hx; rw [hx]; intro y hy; cases hy
    · intro x hx hk pre fs post he h1 h2 h3
      obtain ⟨post', e1, e2⟩ := snoc_split he (by simp [step])
      have hsn := sent_seen (key := tableKey) (log := log) (id := x.id) (fs := fs) (by rw [e1]; simp)
      rcases List.mem_append.1 hx with hx | hx
      · refine hsi.once x hx hk pre fs post' e1 h1 (fun gs hg => h2 gs (by rw [e2]; simp [hg])) ?_
        rw [← h3, book_append]; rfl
      · simp at hx
        rw [hx] at hsn
        exact absurd (h.seen _ hsn) (Nat.lt_irrefl _)
  | unsubscribe f =>
    refine .inl (si_same hsi (.refl _) hsi.sinv ?_)
    intro x hx hk
    rcases List.mem_append.1 hx with hx | hx
    · exact ⟨hx, by simp [step]⟩
    · simp at hx; rw [hx] at hk; cases hk
  | send id pick order w =>
    obtain ⟨r, hr, ho, hp⟩ := hen
    simp only [step, hr] at ht ⊢
    refine .inl ?_
    split
    · next hk =>
      simp only [hk] at ht
      exact si_sendSubscribe h hsi (request_mem hr).1 hk pick w ht
    · next hk => exact si_sendResubscribe h hsi (request_mem hr).1 hk order (ho hk) w
    · next f hk =>
      simp only [hk] at ht
      exact si_sendUnsubscribe h hsi (request_mem hr).1 hk pick hp w ht
  | suback id codes =>
    obtain ⟨r, hr, _⟩ := hen
    simp only [step, hr]
    refine .inl ?_
    unfold Conn.suback
    split
    · exact si_same hsi (.refl _) hsi.sinv (fun x hx _ => ⟨hx, by simp⟩)
    · exact si_complete hsi _ _
  | unsuback id =>
    obtain ⟨r, f, hr, _⟩ := hen
    simp only [step, hr]
    exact .inl (si_complete hsi r true)
  | fail id =>
    obtain ⟨r, hr⟩ := hen
    simp only [step, hr]
    exact .inl (si_complete hsi r false)
  | message topic =>
    simp only [step]
    refine .inl ?_
    split
    · exact si_same hsi (.refl _) hsi.sinv (fun x hx _ => ⟨hx, by simp⟩)
    · refine si_same hsi (.refl _) hsi.sinv (fun x hx _ => ⟨hx, ?_⟩)
      intro gs hg
      rcases List.mem_append.1 hg with hg | hg
      · exact neutral_no_sent (uses_neutral _ _) _ gs hg
      · simp at hg
  | destroy => exact .inr rfl

theorem reachable_si {c : Conn} {log : List Entry} (h : Reachable c log) : c.alive = true → Tame tableKey log → SI c log := by
  induction h with
  | init => intro _ _; exact si_init
  | step e h ha hen ih =>
    intro hal ht
    rcases si_step (reachable_inv h ha) (ih ha ht.left) hen ht with hi | rfl
    · exact hi
    · exfalso
      simp only [step, completeAll_conn] at hal
      cases hal

/-! ### What resubscribe finds -/

theorem found_reads {t : Tree} (h : SInv t []) {p : Path} {n : Node} {s : Sub} (hp : t.nodes.get p = some n)
    (hs : n.sub = some s) : ∃ f, readCursor t (.table n.filterStr) = some f ∧ split 47 f = p := by
  obtain ⟨_, h2, h3, _, _⟩ := h.ref p n hp
  have ho : n.owns = true := (h.ownsub p n hp).2 (by rw [hs]; simp)
  have hpath := h.path p n hp ho
  refine ⟨strAt t n.filterStr, ?_, hpath⟩
  unfold readCursor strAt
  simp only [if_neg h3]
  rw [List.getElem?_eq_getElem h2, List.getD_eq_getElem?_getD, List.getElem?_eq_getElem h2]
  rfl

theorem found_mem {t : Tree} (h : SInv t []) (hn : t.nodes.Nodup) (f : Bytes) (q : Nat) :
    (some f, q) ∈ (found t).map (fun e => (readCursor t (.table e.1), e.2)) ↔ ∃ s, subAt t.nodes (split 47 f) = some s ∧ s.qos = q := by
  unfold found
  rw [List.map_filterMap, List.mem_filterMap]
  constructor
  · rintro ⟨⟨p, n⟩, hm, he⟩
    have hg := (AMap.mem_iff_get hn).1 hm
    cases hs : n.sub with
    | none => simp [hs] at he
    | some s =>
      obtain ⟨g, h1, h2⟩ := found_reads h hg hs
      simp only [hs, Option.map_some, h1, Option.some.injEq, Prod.mk.injEq] at he
      obtain ⟨rfl, rfl⟩ := he
      refine ⟨s, ?_, rfl⟩
      unfold subAt
      rw [h2, hg]
      exact hs
  · rintro ⟨s, hsub, rfl⟩
    unfold subAt at hsub
    cases hg : t.nodes.get (split 47 f) with
    | none => rw [hg] at hsub; cases hsub
    | some n =>
      rw [hg] at hsub
      have hs : n.sub = some s := hsub
      obtain ⟨g, h1, h2⟩ := found_reads h hg hs
      refine ⟨(split 47 f, n), (AMap.mem_iff_get hn).2 hg, ?_⟩
      simp only [hs, Option.map_some, h1, Props.levels_inj h2]

theorem found_nodup {t : Tree} (h : SInv t []) (hn : t.nodes.Nodup) :
    ((found t).map (fun e => readCursor t (.table e.1))).Nodup ∧ ∀ e ∈ found t, readCursor t (.table e.1) ≠ none := by
  constructor
  · have key : ((found t).map (fun e => readCursor t (.table e.1))).map (fun o => o.map (split 47)) = ((iterate t).map (·.1)).map some := by
      unfold found iterate
      simp only [List.map_map]
      have : ∀ l : List (Path × Node), (∀ e ∈ l, t.nodes.get e.1 = some e.2) →
          List.map ((fun o : Option Bytes => o.map (split 47)) ∘ fun e : Nat × Nat => readCursor t (.table e.1))
            (l.filterMap fun e => e.2.sub.map fun s => (e.2.filterStr, s.qos)) =
          List.map (some ∘ fun e : Path × Sub => e.1) (l.filterMap fun e => e.2.sub.map (e.1, ·)) := by
        intro l
        induction l with
        | nil => intro _; rfl
        | cons e l ih =>
          intro hl
          have hg := hl e (by simp)
          simp only [List.filterMap_cons]
          cases hs : e.2.sub with
          | none => exact ih (fun x hx => hl x (by simp [hx]))
          | some s =>
            obtain ⟨g, h1, h2⟩ := found_reads h hg hs
            simp only [Option.map_some, List.map_cons, Function.comp_apply, h1, h2]
            rw [ih (fun x hx => hl x (by simp [hx]))]
      exact this t.nodes (fun e he => (AMap.mem_iff_get hn).1 he)
    have hnd : (((iterate t).map (·.1)).map some).Nodup := by
      have := Props.iterate_keys_nodup hn
      rw [List.Nodup, List.pairwise_map]
      exact this.imp (fun hab e => hab (Option.some.inj e))
    rw [← key] at hnd
    exact nodup_of_map _ hnd
  · intro e he
    unfold found at he
    rw [List.mem_filterMap] at he
    obtain ⟨⟨p, n⟩, hm, hs⟩ := he
    rw [Option.map_eq_some_iff] at hs
    obtain ⟨s, hs, rfl⟩ := hs
    obtain ⟨g, h1, _⟩ := found_reads h ((AMap.mem_iff_get hn).1 hm) hs
    simp only [h1]
    simp

end Mqtt.Subs311
