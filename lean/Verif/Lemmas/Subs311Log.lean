import Verif.Lemmas.Subs311Refs

/-!
What the log of an MQTT 3.1.1 connection tells (C83, C84).
-/
namespace Mqtt.Subs311
open Mqtt Mqtt.Spec Mqtt.TopicTree

theorem snoc_rec {α : Type} {P : List α → Prop} (hnil : P []) (h : ∀ a x, P a → P (a ++ [x])) (l : List α) : P l := by
  have key : ∀ l : List α, P l.reverse := by
    intro l
    induction l with
    | nil => exact hnil
    | cons x l ih => rw [List.reverse_cons]; exact h _ x ih
  have := key l.reverse
  rwa [List.reverse_reverse] at this

theorem fold_calls (key : Bytes → Option Bytes) (es : List Entry) (h : ∀ id x, Entry.called id x ∉ es) :
    ∀ b : Book, (es.foldl (Book.note key) b).calls = b.calls := by
  induction es with
  | nil => intro b; rfl
  | cons e es ih =>
    intro b
    rw [List.foldl_cons, ih (fun id x hx => h id x (by simp [hx]))]
    cases e <;> first | rfl | exact packet_calls | skip
    next id x => exact absurd (by simp) (h id x)

theorem called_mem_calls {key : Bytes → Option Bytes} {log : List Entry} {id : Nat} {x : Call} :
    (id, x) ∈ (book key log).calls → Entry.called id x ∈ log := by
  induction log using snoc_rec with
  | hnil => intro h; cases h
  | h log e ih =>
    intro h
    rw [book_append] at h
    simp only [List.foldl_cons, List.foldl_nil] at h
    cases e with
    | called id' x' =>
      simp only [Book.note, List.mem_cons] at h
      rcases h with h | h
      · injection h with h1 h2; subst h1 h2; simp
      · exact List.mem_append_left _ (ih h)
    | sent id' gs => simp only [Book.note, packet_calls] at h; exact List.mem_append_left _ (ih h)
    | sentUnsubscribe id' f => simp only [Book.note, packet_calls] at h; exact List.mem_append_left _ (ih h)
    | _ => exact List.mem_append_left _ (ih h)

theorem lookup_mem' {l : List (Nat × Call)} {id : Nat} {x : Call} (h : l.lookup id = some x) : (id, x) ∈ l := by
  induction l with
  | nil => cases h
  | cons e l ih =>
    obtain ⟨k, v⟩ := e
    rw [List.lookup_cons] at h
    split at h
    · next he => injection h with h; subst h; simp at he; simp [he]
    · exact List.mem_cons_of_mem _ (ih h)

/-- Topics of one call have different numbers. -/
theorem numbered_nodup (fs : List (Bytes × Nat)) (n : Nat) : ((numbered n fs).map (·.2.2)).Nodup := by
  rw [numbered_uids]; exact List.nodup_range'

/-- The shape of what a step adds to the log. -/
inductive Out (c : Conn) : List Entry → Prop where
  | called (x : Call) : (∀ fs, x = .subscribe fs → (fs.map (·.2.2)).Nodup) → Out c [.called c.nextId x]
  | sent (r : Request) (gs : List (Option Bytes × Nat)) (nt : List Entry) : r ∈ c.requests → (∀ e ∈ nt, ∃ u, e = .cleanup u ∨ e = .invalid u) →
      (r.kind = .subscribe → gs = readTopics c.table r.topics) → (∀ f, r.kind ≠ .unsubscribe f) → Out c (.sent r.id gs :: nt)
  | sentUnsubscribe (r : Request) (f : Bytes) (nt : List Entry) : r ∈ c.requests → (∀ e ∈ nt, ∃ u, e = .cleanup u ∨ e = .invalid u) →
      r.kind = .unsubscribe f → Out c (.sentUnsubscribe r.id f :: nt)
  | neutral (out : List Entry) : (∀ e ∈ out, e.neutral = true) →
      (∀ id gs ok, Entry.answered id gs ok ∈ out → ∃ r ∈ c.requests, r.id = id ∧
        (r.kind = .subscribe → gs.map (·.1) = (readTopics c.table r.topics).map (·.1))) →
      (∀ topic us, Entry.delivered topic us ∈ out → out = [.delivered topic us] ∧ ∀ u ∈ us, c.refs u ≠ 0) → Out c out

theorem release_out (us : List Nat) : ∀ refs, ∀ e ∈ (release refs us).2, ∃ u, e = .cleanup u ∨ e = .invalid u := by
  induction us with
  | nil => intro refs e he; cases he
  | cons x us ih =>
    intro refs e he
    unfold release at he
    split at he
    · rcases List.mem_cons.1 he with rfl | he
      · exact ⟨x, .inr rfl⟩
      · exact ih _ e he
    · rcases List.mem_append.1 he with he | he
      · split at he
        · simp at he; exact ⟨x, .inl he⟩
        · cases he
      · exact ih _ e he

theorem complete_answered (c : Conn) (r : Request) (ok : Bool) {id : Nat} {gs : List (Option Bytes × Nat)} {ok' : Bool}
    (h : Entry.answered id gs ok' ∈ (c.complete r ok).2) : id = r.id ∧ gs = readTopics c.table r.topics := by
  unfold Conn.complete Conn.finish at h
  simp only at h
  split at h
  · rcases List.mem_cons.1 h with h | h
    · injection h with h1 h2; exact ⟨h1, h2⟩
    · obtain ⟨u, e | e⟩ := release_out _ _ _ h <;> cases e
  · split at h
    · cases h
    · simp at h; exact ⟨h.1, h.2.1⟩
  · simp at h

theorem complete_delivered (c : Conn) (r : Request) (ok : Bool) (topic : Bytes) (us : List Nat) :
    Entry.delivered topic us ∉ (c.complete r ok).2 := by
  intro h
  unfold Conn.complete Conn.finish at h
  simp only at h
  split at h
  · rcases List.mem_cons.1 h with h | h
    · cases h
    · obtain ⟨u, e | e⟩ := release_out _ _ _ h <;> cases e
  · split at h
    · cases h
    · simp at h
  · simp at h

theorem completeAll_delivered (ok : Bool) (rs : List Request) (topic : Bytes) (us : List Nat) : ∀ c : Conn,
    Entry.delivered topic us ∉ (c.completeAll ok rs).2 := by
  induction rs with
  | nil => intro c h; cases h
  | cons r rs ih =>
    intro c h
    unfold Conn.completeAll at h
    simp only at h
    rcases List.mem_append.1 h with h | h
    · exact complete_delivered _ _ _ _ _ h
    · exact ih _ h

theorem complete_out {c c1 : Conn} {r r' : Request} (hr : r ∈ c.requests) (hid : r'.id = r.id)
    (hs : r.kind = .subscribe → (readTopics c1.table r'.topics).map (·.1) = (readTopics c.table r.topics).map (·.1)) (ok : Bool) :
    Out c (c1.complete r' ok).2 := by
  refine .neutral _ (complete_neutral _ _ _) ?_ (fun _ _ h => absurd h (complete_delivered _ _ _ _ _))
  intro id gs ok' h
  obtain ⟨h1, h2⟩ := complete_answered _ _ _ h
  refine ⟨r, hr, by rw [h1, hid], ?_⟩
  intro hk
  rw [h2]; exact hs hk

theorem completeAll_answered (ok : Bool) (rs : List Request) : ∀ (c : Conn) {id : Nat} {gs : List (Option Bytes × Nat)} {ok' : Bool},
    Entry.answered id gs ok' ∈ (c.completeAll ok rs).2 → ∃ r ∈ rs, id = r.id ∧ gs = readTopics c.table r.topics := by
  induction rs with
  | nil => intro c id gs ok' h; cases h
  | cons r rs ih =>
    intro c id gs ok' h
    unfold Conn.completeAll at h
    simp only at h
    rcases List.mem_append.1 h with h | h
    · obtain ⟨h1, h2⟩ := complete_answered _ _ _ h
      exact ⟨r, by simp, h1, h2⟩
    · obtain ⟨x, hx, h1, h2⟩ := ih _ h
      obtain ⟨refs, e⟩ := complete_conn c r ok
      exact ⟨x, by simp [hx], h1, by rw [h2, e]⟩

theorem completeAll_neutral (ok : Bool) (rs : List Request) : ∀ (c : Conn), ∀ e ∈ (c.completeAll ok rs).2, e.neutral = true := by
  induction rs with
  | nil => intro c e h; cases h
  | cons r rs ih =>
    intro c e h
    unfold Conn.completeAll at h
    simp only at h
    rcases List.mem_append.1 h with h | h
    · exact complete_neutral _ _ _ e h
    · exact ih _ e h

theorem readTopics_own {b : Book} {n : Nat} {r : Request} (h : ReqOk b n r) (hk : r.kind = .subscribe) (t : Tree) :
    ∃ fs, b.calls.lookup r.id = some (.subscribe fs) ∧ readTopics t r.topics = fs.map (fun e => (some e.1, e.2.1)) := by
  obtain ⟨fs, hl, ht, _⟩ := h.sub hk
  refine ⟨fs, hl, ?_⟩
  rw [ht]
  unfold readTopics
  rw [List.map_map]
  rfl

theorem readTopics_same {b : Book} {n : Nat} {r : Request} (h : ReqOk b n r) (hk : r.kind = .subscribe) (t t' : Tree) :
    readTopics t r.topics = readTopics t' r.topics := by
  obtain ⟨fs, h1, h2⟩ := readTopics_own h hk t
  obtain ⟨fs', h3, h4⟩ := readTopics_own h hk t'
  rw [h1] at h3
  injection h3 with h3
  injection h3 with h3
  rw [h2, h4, h3]

theorem zipWith_fst (t : Tree) (ts : List Topic) : ∀ (codes : List Nat), ts.length = codes.length →
    readTopics t (ts.zipWith (fun x q => { x with qos := q }) codes) =
      (readTopics t ts).zipWith (fun e q => (e.1, q)) codes := by
  induction ts with
  | nil => intro codes _; rfl
  | cons x ts ih =>
    intro codes hl
    cases codes with
    | nil => cases hl
    | cons q codes =>
      have := ih codes (by simpa using hl)
      simp only [readTopics, List.zipWith_cons_cons, List.map_cons] at this ⊢
      rw [this]

theorem zipWith_map_fst {gs : List (Option Bytes × Nat)} : ∀ {codes : List Nat}, gs.length = codes.length →
    (gs.zipWith (fun e q => (e.1, q)) codes).map (·.1) = gs.map (·.1) := by
  induction gs with
  | nil => intro codes _; rfl
  | cons x gs ih =>
    intro codes hl
    cases codes with
    | nil => cases hl
    | cons q codes =>
      simp only [List.zipWith_cons_cons, List.map_cons]
      rw [ih (by simpa using hl)]

theorem step_out {c : Conn} {log : List Entry} (h : Inv c log) (hri : RI c log) {e : Event} (hen : Enabled c e) : Out c (step c e).2 := by
  cases e with
  | subscribe fs => exact .called _ (fun gs e => by injection e with e; subst e; exact numbered_nodup _ _)
  | resubscribe => exact .called _ (by simp)
  | unsubscribe f => exact .called _ (by simp)
  | send id pick order w =>
    obtain ⟨r, hr, ho, hp⟩ := hen
    have hm := (request_mem hr).1
    have hro := h.reqs r hm
    simp only [step, hr]
    split
    · next hk =>
      obtain ⟨fs, _, _, _, hpk, _⟩ := hro.sub hk
      have hpacket : ((r.packet.getD (r.topics.map fun x => (x.cur, x.qos))).map fun e => (readCursor c.table e.1, e.2)) = readTopics c.table r.topics := by
        rcases hpk with hpk | hpk <;> rw [hpk] <;> simp [readTopics]
      have hnk : ∀ f, r.kind ≠ .unsubscribe f := by rw [hk]; intro f; simp
      unfold Conn.sendSubscribe
      simp only
      split
      · split
        · exact .sent r _ [] hm (by simp) (fun _ => hpacket) hnk
        · exact complete_out hm rfl (fun hk => congrArg _ (readTopics_same hro hk _ _)) false
      · split
        · exact .sent r _ _ hm (release_out _ _) (fun _ => hpacket) hnk
        · obtain ⟨ha1, ha2⟩ := aborted_spec ((insertable r.topics).1.map fun e : Bytes × Topic => TxStep.insert e.1 e.2.sub) c.table h.tree.closed
          have hd : (aborted c.table ((insertable r.topics).1.map fun e : Bytes × Topic => TxStep.insert e.1 e.2.sub)).cleaned.drop c.table.cleaned.length = [] := by
            rw [ha2]; simp
          simp only [Conn.setTable, hd, release, List.nil_append]
          refine .neutral _ ?_ ?_ ?_
          · intro e he
            rcases List.mem_cons.1 he with rfl | he
            · rfl
            · exact complete_neutral _ _ _ e he
          · intro id gs ok he
            rcases List.mem_cons.1 he with he | he
            · cases he
            · obtain ⟨h1, h2⟩ := complete_answered _ _ _ he
              exact ⟨r, hm, h1.symm, fun hk => by rw [h2]; exact congrArg _ (readTopics_same hro hk _ _)⟩
          · intro topic us he
            rcases List.mem_cons.1 he with he | he
            · cases he
            · exact absurd he (complete_delivered _ _ _ _ _)
    · next hk =>
      have hnk : ∀ f, r.kind ≠ .unsubscribe f := by rw [hk]; intro f; simp
      have hns : r.kind ≠ .subscribe := by rw [hk]; simp
      unfold Conn.sendResubscribe
      simp only
      split
      · exact complete_out (r' := { r with topics := [] }) hm rfl (fun hk => absurd hk hns) true
      · split
        · exact .sent r _ [] hm (by simp) (fun hk => absurd hk hns) hnk
        · exact complete_out (r' := { r with topics := _, packet := _ }) hm (by rfl) (fun hk => absurd hk hns) false
    · next f hk =>
      have hns : r.kind ≠ .subscribe := by rw [hk]; simp
      unfold Conn.sendUnsubscribe
      split
      · split
        · exact .sentUnsubscribe r f [] hm (by simp) hk
        · exact complete_out hm rfl (fun hk => absurd hk hns) false
      · split
        · exact complete_out hm rfl (fun hk => absurd hk hns) false
        · split
          · exact .sentUnsubscribe r f _ hm (release_out _ _) hk
          · exact complete_out hm rfl (fun hk => absurd hk hns) false
  | suback id codes =>
    obtain ⟨r, hr, _⟩ := hen
    have hm := (request_mem hr).1
    simp only [step, hr]
    unfold Conn.suback
    split
    · exact .neutral _ (by simp [Entry.neutral]) (by simp) (by simp)
    · next hl =>
      have hl : r.topics.length = codes.length := by simpa using hl
      refine complete_out (r' := { r with topics := _ }) hm (by rfl) (fun hk => ?_) true
      rw [zipWith_fst _ _ _ hl]
      exact zipWith_map_fst (by simpa [readTopics] using hl)
  | unsuback id =>
    obtain ⟨r, f, hr, _⟩ := hen
    simp only [step, hr]
    exact complete_out (request_mem hr).1 rfl (fun _ => rfl) true
  | fail id =>
    obtain ⟨r, hr⟩ := hen
    simp only [step, hr]
    exact complete_out (request_mem hr).1 rfl (fun _ => rfl) false
  | message topic =>
    obtain ⟨calls, _, h2, h3⟩ := ri_message h hri hen
    rw [h2]
    refine .neutral _ (by simp [Entry.neutral]) (by simp) ?_
    intro t us he
    simp only [List.mem_cons, List.not_mem_nil, or_false] at he
    injection he with e1 e2
    subst e1 e2
    exact ⟨rfl, h3⟩
  | destroy =>
    simp only [step]
    refine .neutral _ ?_ ?_ ?_
    · intro e he
      rcases List.mem_append.1 he with he | he
      · exact setTable_neutral _ _ e he
      · exact completeAll_neutral _ _ _ e he
    · intro id gs ok he
      rcases List.mem_append.1 he with he | he
      · obtain ⟨u, e | e⟩ := release_out _ _ _ he <;> cases e
      · obtain ⟨r, hr, rfl, h2⟩ := completeAll_answered _ _ _ he
        exact ⟨r, hr, rfl, fun hk => by rw [h2]; exact congrArg _ (readTopics_same (h.reqs r hr) hk _ _)⟩
    · intro topic us he
      rcases List.mem_append.1 he with he | he
      · obtain ⟨u, e | e⟩ := release_out _ _ _ he <;> cases e
      · exact absurd he (completeAll_delivered _ _ _ _ _)

theorem step_delivered {c : Conn} {log : List Entry} (h : Inv c log) (hri : RI c log) {e : Event} (hen : Enabled c e) {topic : Bytes}
    {us : List Nat} (hd : .delivered topic us ∈ (step c e).2) : (step c e).2 = [.delivered topic us] ∧ ∀ u ∈ us, c.refs u ≠ 0 := by
  have := step_out h hri hen
  generalize (step c e).2 = out at this hd
  cases this with
  | called x _ => simp at hd
  | sent r gs nt _ hn _ _ =>
    rcases List.mem_cons.1 hd with hd | hd
    · cases hd
    · obtain ⟨u, e | e⟩ := hn _ hd <;> cases e
  | sentUnsubscribe r f nt _ hn _ =>
    rcases List.mem_cons.1 hd with hd | hd
    · cases hd
    · obtain ⟨u, e | e⟩ := hn _ hd <;> cases e
  | neutral _ _ _ h3 => exact h3 _ _ hd

theorem Out.calls {c : Conn} {out : List Entry} (h : Out c out) :
    (∃ x, out = [.called c.nextId x]) ∨ (∀ id x, Entry.called id x ∉ out) := by
  cases h with
  | called x _ => exact .inl ⟨x, rfl⟩
  | sent r gs nt _ hn _ _ =>
    right
    intro id x hx
    rcases List.mem_cons.1 hx with hx | hx
    · cases hx
    · obtain ⟨u, e | e⟩ := hn _ hx <;> cases e
  | sentUnsubscribe r f nt _ hn _ =>
    right
    intro id x hx
    rcases List.mem_cons.1 hx with hx | hx
    · cases hx
    · obtain ⟨u, e | e⟩ := hn _ hx <;> cases e
  | neutral _ hn _ _ =>
    right
    intro id x hx
    have := hn _ hx
    cases this

structure LogOk (log : List Entry) (n : Nat) : Prop where
  lt : ∀ id x, Entry.called id x ∈ log → id < n
  lookup : ∀ id x, Entry.called id x ∈ log → (book tableKey log).calls.lookup id = some x
  sent : ∀ id gs fs, Entry.sent id gs ∈ log → (book tableKey log).calls.lookup id = some (.subscribe fs) → gs = fs.map fun e => (some e.1, e.2.1)
  answered : ∀ id gs ok fs, Entry.answered id gs ok ∈ log → (book tableKey log).calls.lookup id = some (.subscribe fs) →
    gs.map (·.1) = fs.map fun e => some e.1
  sentlt : ∀ id gs, Entry.sent id gs ∈ log → id < n
  anslt : ∀ id gs ok, Entry.answered id gs ok ∈ log → id < n

theorem step_nextId {c : Conn} {e : Event} (hen : Enabled c e) :
    c.nextId ≤ (step c e).1.nextId ∧ (∀ x, (step c e).2 = [.called c.nextId x] → (step c e).1.nextId = c.nextId + 1) := by
  have hc : ∀ (c' : Conn) r ok, (c'.complete r ok).1.nextId = c'.nextId := by
    intro c' r ok
    obtain ⟨refs, e⟩ := complete_conn c' r ok
    rw [e]
  have hall : ∀ (rs : List Request) (c' : Conn) ok, (c'.completeAll ok rs).1.nextId = c'.nextId := by
    intro rs
    induction rs with
    | nil => intro c' ok; rfl
    | cons r rs ih => intro c' ok; exact (ih _ ok).trans (hc _ _ _)
  have hne : ∀ {out : List Entry} {x : Call}, (∀ e ∈ out, e.neutral = true) → out ≠ [.called c.nextId x] := by
    intro out x h e
    subst e
    have := h _ (List.mem_singleton.2 rfl)
    cases this
  cases e with
  | subscribe fs => exact ⟨Nat.le_succ _, fun _ _ => rfl⟩
  | resubscribe => exact ⟨Nat.le_succ _, fun _ _ => rfl⟩
  | unsubscribe f => exact ⟨Nat.le_succ _, fun _ _ => rfl⟩
  | send id pick order w =>
    obtain ⟨r, hr, _⟩ := hen
    simp only [step, hr]
    split
    · unfold Conn.sendSubscribe
      simp only
      split
      · split
        · exact ⟨Nat.le_refl _, fun x hx => by simp at hx⟩
        · exact ⟨Nat.le_of_eq (hc _ _ _).symm, fun x hx => absurd hx (hne (complete_neutral _ _ _))⟩
      · split
        · exact ⟨Nat.le_refl _, fun x hx => by simp at hx⟩
        · refine ⟨by rw [hc]; exact Nat.le_refl _, fun x hx => absurd hx (hne ?_)⟩
          intro e he
          rcases List.mem_cons.1 he with rfl | he
          · rfl
          rcases List.mem_append.1 he with he | he
          · exact setTable_neutral _ _ e he
          · exact complete_neutral _ _ _ e he
    · unfold Conn.sendResubscribe
      simp only
      split
      · exact ⟨Nat.le_of_eq (hc _ _ _).symm, fun x hx => absurd hx (hne (complete_neutral _ _ _))⟩
      · split
        · exact ⟨Nat.le_refl _, fun x hx => by simp at hx⟩
        · exact ⟨Nat.le_of_eq (hc _ _ _).symm, fun x hx => absurd hx (hne (complete_neutral _ _ _))⟩
    · unfold Conn.sendUnsubscribe
      split
      · split
        · exact ⟨Nat.le_refl _, fun x hx => by simp at hx⟩
        · exact ⟨Nat.le_of_eq (hc _ _ _).symm, fun x hx => absurd hx (hne (complete_neutral _ _ _))⟩
      · split
        · exact ⟨Nat.le_of_eq (hc _ _ _).symm, fun x hx => absurd hx (hne (complete_neutral _ _ _))⟩
        · split
          · exact ⟨Nat.le_refl _, fun x hx => by simp at hx⟩
          · exact ⟨Nat.le_of_eq (hc _ _ _).symm, fun x hx => absurd hx (hne (complete_neutral _ _ _))⟩
  | suback id codes =>
    obtain ⟨r, hr, _⟩ := hen
    simp only [step, hr]
    unfold Conn.suback
    split
    · exact ⟨Nat.le_refl _, fun x hx => by simp at hx⟩
    · exact ⟨Nat.le_of_eq (hc _ _ _).symm, fun x hx => absurd hx (hne (complete_neutral _ _ _))⟩
  | unsuback id =>
    obtain ⟨r, f, hr, _⟩ := hen
    simp only [step, hr]
    exact ⟨Nat.le_of_eq (hc _ _ _).symm, fun x hx => absurd hx (hne (complete_neutral _ _ _))⟩
  | fail id =>
    obtain ⟨r, hr⟩ := hen
    simp only [step, hr]
    exact ⟨Nat.le_of_eq (hc _ _ _).symm, fun x hx => absurd hx (hne (complete_neutral _ _ _))⟩
  | message topic =>
    simp only [step]
    split
    · exact ⟨Nat.le_refl _, fun x hx => by simp at hx⟩
    · refine ⟨Nat.le_refl _, fun x hx => absurd hx (hne ?_)⟩
      intro e he
      rcases List.mem_append.1 he with he | he
      · exact uses_neutral _ _ e he
      · simp at he; rw [he]; rfl
  | destroy =>
    simp only [step]
    refine ⟨by rw [hall]; exact Nat.le_refl _, fun x hx => absurd hx (hne ?_)⟩
    intro e he
    rcases List.mem_append.1 he with he | he
    · exact setTable_neutral _ _ e he
    · exact completeAll_neutral _ _ _ e he

theorem logOk_step {c : Conn} {log out : List Entry} {n : Nat} (h : Inv c log) (hl : LogOk log c.nextId) (ho : Out c out)
    (hn : c.nextId ≤ n) (hn' : ∀ x, out = [.called c.nextId x] → n = c.nextId + 1) : LogOk (log ++ out) n := by
  have hsame : (∀ id x, Entry.called id x ∉ out) → (book tableKey (log ++ out)).calls = (book tableKey log).calls := by
    intro hx
    rw [book_append]; exact fold_calls _ _ hx _
  have hrest : (∀ id x, Entry.called id x ∉ out) →
      (∀ id gs, Entry.sent id gs ∈ out → id < c.nextId ∧ ∀ fs, (book tableKey log).calls.lookup id = some (.subscribe fs) → gs = fs.map fun e => (some e.1, e.2.1)) →
      (∀ id gs ok, Entry.answered id gs ok ∈ out → id < c.nextId ∧ ∀ fs, (book tableKey log).calls.lookup id = some (.subscribe fs) →
        gs.map (·.1) = fs.map fun e => some e.1) → LogOk (log ++ out) n := by
    intro hx h1 h2
    constructor
    · intro id x hm
      rcases List.mem_append.1 hm with hm | hm
      · have := hl.lt id x hm; omega
      · exact absurd hm (hx id x)
    · intro id x hm
      rw [hsame hx]
      rcases List.mem_append.1 hm with hm | hm
      · exact hl.lookup id x hm
      · exact absurd hm (hx id x)
    · intro id gs fs hm hlk
      rw [hsame hx] at hlk
      rcases List.mem_append.1 hm with hm | hm
      · exact hl.sent id gs fs hm hlk
      · exact (h1 id gs hm).2 fs hlk
    · intro id gs ok fs hm hlk
      rw [hsame hx] at hlk
      rcases List.mem_append.1 hm with hm | hm
      · exact hl.answered id gs ok fs hm hlk
      · exact (h2 id gs ok hm).2 fs hlk
    · intro id gs hm
      rcases List.mem_append.1 hm with hm | hm
      · have := hl.sentlt id gs hm; omega
      · have := (h1 id gs hm).1; omega
    · intro id gs ok hm
      rcases List.mem_append.1 hm with hm | hm
      · have := hl.anslt id gs ok hm; omega
      · have := (h2 id gs ok hm).1; omega
  have hnx := ho.calls
  rcases hnx with ⟨x, rfl⟩ | hnx
  · have e := hn' x rfl
    have hb : (book tableKey (log ++ [.called c.nextId x])).calls = (c.nextId, x) :: (book tableKey log).calls := by
      rw [book_append]; rfl
    subst e
    constructor
    · intro id y hm
      rcases List.mem_append.1 hm with hm | hm
      · have := hl.lt id y hm; omega
      · simp at hm; omega
    · intro id y hm
      rw [hb]
      rcases List.mem_append.1 hm with hm | hm
      · rw [lookup_new (hl.lt id y hm)]; exact hl.lookup id y hm
      · simp at hm; rw [hm.1, hm.2]; exact lookup_same _ _ _
    · intro id gs fs hm hlk
      have hm : Entry.sent id gs ∈ log := by simpa using hm
      rw [hb, lookup_new (hl.sentlt id gs hm)] at hlk
      exact hl.sent id gs fs hm hlk
    · intro id gs ok fs hm hlk
      have hm : Entry.answered id gs ok ∈ log := by simpa using hm
      rw [hb, lookup_new (hl.anslt id gs ok hm)] at hlk
      exact hl.answered id gs ok fs hm hlk
    · intro id gs hm
      have hm : Entry.sent id gs ∈ log := by simpa using hm
      have := hl.sentlt id gs hm; omega
    · intro id gs ok hm
      have hm : Entry.answered id gs ok ∈ log := by simpa using hm
      have := hl.anslt id gs ok hm; omega
  · apply hrest hnx
    · intro id gs hm
      cases ho with
      | called x _ => exact absurd (by simp) (hnx c.nextId x)
      | sent r gs' nt hr hnt hg hk =>
        rcases List.mem_cons.1 hm with hm | hm
        · injection hm with h1 h2
          subst h1 h2
          refine ⟨(h.reqs r hr).lt, ?_⟩
          intro fs hlk
          have hks : r.kind = .subscribe := by
            cases hkk : r.kind with
            | subscribe => rfl
            | resubscribe => rw [((h.reqs r hr).resub hkk).1] at hlk; injection hlk with hlk; cases hlk
            | unsubscribe f => exact absurd hkk (hk f)
          obtain ⟨fs', h1, h2⟩ := readTopics_own (h.reqs r hr) hks c.table
          rw [h1] at hlk
          injection hlk with hlk
          injection hlk with hlk
          rw [hg hks, h2, hlk]
        · obtain ⟨u, e | e⟩ := hnt _ hm <;> cases e
      | sentUnsubscribe r f nt hr hnt hk =>
        rcases List.mem_cons.1 hm with hm | hm
        · cases hm
        · obtain ⟨u, e | e⟩ := hnt _ hm <;> cases e
      | neutral _ hnt _ => have := hnt _ hm; cases this
    · intro id gs ok hm
      cases ho with
      | called x _ => exact absurd (by simp) (hnx c.nextId x)
      | sent r gs' nt hr hnt hg hk =>
        rcases List.mem_cons.1 hm with hm | hm
        · cases hm
        · obtain ⟨u, e | e⟩ := hnt _ hm <;> cases e
      | sentUnsubscribe r f nt hr hnt hk =>
        rcases List.mem_cons.1 hm with hm | hm
        · cases hm
        · obtain ⟨u, e | e⟩ := hnt _ hm <;> cases e
      | neutral _ hnt hans =>
        obtain ⟨r, hr, rfl, hg⟩ := hans id gs ok hm
        refine ⟨(h.reqs r hr).lt, ?_⟩
        intro fs hlk
        have hks : r.kind = .subscribe := by
          cases hkk : r.kind with
          | subscribe => rfl
          | resubscribe => rw [((h.reqs r hr).resub hkk).1] at hlk; injection hlk with hlk; cases hlk
          | unsubscribe f => rw [((h.reqs r hr).unsub f hkk).1] at hlk; injection hlk with hlk; cases hlk
        obtain ⟨fs', h1, h2⟩ := readTopics_own (h.reqs r hr) hks c.table
        rw [h1] at hlk
        injection hlk with hlk
        injection hlk with hlk
        rw [hg hks, h2, hlk, List.map_map]
        rfl

theorem reachable_log {c : Conn} {log : List Entry} (h : Reachable c log) : LogOk log c.nextId := by
  induction h with
  | init => constructor <;> simp
  | step e h ha hen ih =>
    have hi := reachable_inv h ha
    obtain ⟨n1, n2⟩ := step_nextId hen
    exact logOk_step hi ih (step_out hi (reachable_ri h) hen) n1 n2

/-! ### A topic is in effect for one filter -/

def Sourced (key : Bytes → Option Bytes) (b : Book) : Prop :=
  ∀ f u q, b.subs f = some (u, q) → ∃ id fs e, (id, Call.subscribe fs) ∈ b.calls ∧ e ∈ fs ∧ e.2.2 = u ∧ e.2.1 = q ∧ key e.1 = some f

theorem after_sourced (key : Bytes → Option Bytes) (fs : List (Bytes × Nat × Nat)) : ∀ (m : Bytes → Option (Nat × Nat)) f u q,
    after key m (.subscribe fs) f = some (u, q) → m f = some (u, q) ∨ ∃ e ∈ fs, e.2.2 = u ∧ e.2.1 = q ∧ key e.1 = some f := by
  induction fs with
  | nil => intro m f u q h; exact .inl h
  | cons e fs ih =>
    intro m f u q h
    rcases ih (fun f => if key e.1 = some f then some (e.2.2, e.2.1) else m f) f u q h with h1 | ⟨x, hx, h1⟩
    · split at h1
      · next hk =>
        injection h1 with h1
        injection h1 with h1 h2
        exact .inr ⟨e, by simp, h1, h2, hk⟩
      · exact .inl h1
    · exact .inr ⟨x, by simp [hx], h1⟩

theorem book_sourced (key : Bytes → Option Bytes) (log : List Entry) : Sourced key (book key log) := by
  induction log using snoc_rec with
  | hnil => intro f u q h; cases h
  | h log e ih =>
    have hp : ∀ id, Sourced key ((book key log).packet key id) := by
      intro id f u q hf
      rw [packet_calls]
      unfold Book.packet at hf
      split at hf
      · exact ih f u q hf
      · split at hf
        · exact ih f u q hf
        · exact ih f u q hf
        · next x hne hl =>
          cases x with
          | subscribe fs =>
            rcases after_sourced key fs _ f u q hf with h1 | ⟨e, he, h1⟩
            · exact ih f u q h1
            · exact ⟨id, fs, e, lookup_mem' hl, he, h1⟩
          | resubscribe => exact ih f u q hf
          | unsubscribe g =>
            simp only [after] at hf
            split at hf
            · cases hf
            · exact ih f u q hf
    rw [book_append]
    simp only [List.foldl_cons, List.foldl_nil]
    cases e with
    | called id x =>
      intro f u q hf
      obtain ⟨i, fs, e, h1, h2⟩ := ih f u q hf
      exact ⟨i, fs, e, List.mem_cons_of_mem _ h1, h2⟩
    | sent id gs => exact hp id
    | sentUnsubscribe id f => exact hp id
    | _ => exact ih

def CallsNodup (log : List Entry) : Prop := ∀ id fs, Entry.called id (.subscribe fs) ∈ log → (fs.map (·.2.2)).Nodup

theorem callsNodup_reachable {c : Conn} {log : List Entry} (h : Reachable c log) : CallsNodup log := by
  induction h with
  | init => intro id fs h; cases h
  | @step c log e h ha hen ih =>
    intro id fs hm
    rcases List.mem_append.1 hm with hm | hm
    · exact ih id fs hm
    · have ho := step_out (reachable_inv h ha) (reachable_ri h) hen
      generalize (step c e).2 = out at ho hm
      cases ho with
      | called x hx => simp at hm; exact hx fs hm.2.symm
      | sent r gs nt _ hn _ _ =>
        rcases List.mem_cons.1 hm with hm | hm
        · cases hm
        · obtain ⟨u, e | e⟩ := hn _ hm <;> cases e
      | sentUnsubscribe r f nt _ hn _ =>
        rcases List.mem_cons.1 hm with hm | hm
        · cases hm
        · obtain ⟨u, e | e⟩ := hn _ hm <;> cases e
      | neutral _ hn _ => have := hn _ hm; cases this

theorem nodup_uid {fs : List (Bytes × Nat × Nat)} (h : (fs.map (·.2.2)).Nodup) {a b : Bytes × Nat × Nat} (ha : a ∈ fs) (hb : b ∈ fs)
    (e : a.2.2 = b.2.2) : a = b := by
  induction fs with
  | nil => cases ha
  | cons x fs ih =>
    simp only [List.map_cons, List.nodup_cons, List.mem_map, not_exists, not_and] at h
    rcases List.mem_cons.1 ha with h1 | h1 <;> rcases List.mem_cons.1 hb with h2 | h2
    · rw [h1, h2]
    · subst h1; exact absurd e.symm (h.1 b h2)
    · subst h2; exact absurd e (h.1 a h1)
    · exact ih h.2 h1 h2

theorem one_filter {c : Conn} {log : List Entry} (h : Reachable c log) {f g : Bytes} {u q q' : Nat}
    (hf : (book tableKey log).subs f = some (u, q)) (hg : (book tableKey log).subs g = some (u, q')) : f = g := by
  obtain ⟨id, fs, e, h1, h2, h3, _, h5⟩ := book_sourced tableKey log f u q hf
  obtain ⟨id', fs', e', k1, k2, k3, _, k5⟩ := book_sourced tableKey log g u q' hg
  have c1 := called_mem_calls h1
  have c2 := called_mem_calls k1
  have := (reachable_ri h).uniq id fs id' fs' e e' c1 c2 h2 k2 (h3.trans k3.symm)
  subst this
  have l1 := (reachable_log h).lookup _ _ c1
  have l2 := (reachable_log h).lookup _ _ c2
  rw [l1] at l2
  injection l2 with l2
  injection l2 with l2
  subst l2
  have := nodup_uid (callsNodup_reachable h _ _ c1) h2 k2 (h3.trans k3.symm)
  subst this
  rw [h5] at k5
  exact Option.some.inj k5

/-! ### Without shared subscriptions -/

theorem after_noShared {m : Bytes → Option (Nat × Nat)} (x : Call) (h : match x with
    | .subscribe fs => ∀ e ∈ fs, ¬ LooksShared e.1
    | .unsubscribe f => ¬ LooksShared f
    | .resubscribe => True) : after tableKey m x = after some m x := by
  cases x with
  | subscribe fs =>
    have h : ∀ e ∈ fs, ¬ LooksShared e.1 := h
    unfold after
    induction fs generalizing m with
    | nil => rfl
    | cons e fs ih =>
      simp only [List.foldl_cons]
      rw [tableKey_plain (h e (by simp))]
      exact ih (fun x hx => h x (by simp [hx])) (fun x hx => h x (by simp [hx]))
  | unsubscribe g => simp only [after]; rw [tableKey_plain h]
  | resubscribe => rfl

theorem book_noShared {log : List Entry} (h : NoShared log) : book tableKey log = book some log := by
  induction log using snoc_rec with
  | hnil => rfl
  | h log e ih =>
    have hl : NoShared log := fun id x hx => h id x (List.mem_append_left _ hx)
    have hp : ∀ id, (book some log).packet tableKey id = (book some log).packet some id := by
      intro id
      unfold Book.packet
      split
      · rfl
      · cases hlk : (book some log).calls.lookup id with
        | none => rfl
        | some x =>
          have := after_noShared (m := (book some log).subs) x (hl id x (called_mem_calls (lookup_mem' hlk)))
          cases x <;> simp only [this]
    rw [book_append, book_append, ih hl]
    simp only [List.foldl_cons, List.foldl_nil]
    cases e with
    | sent id gs => exact hp id
    | sentUnsubscribe id f => exact hp id
    | _ => rfl

/-! ### Histories played step by step -/

inductive Cmd where
  | subscribe (fs : List (Bytes × Nat))
  | resubscribe
  | unsubscribe (f : Bytes)
  | send (id : Nat) (written : Bool)
  | suback (id : Nat) (codes : List Nat)
  | unsuback (id : Nat)
  | fail (id : Nat)
  | message (topic : Bytes)
  | destroy

def Cmd.event (c : Conn) : Cmd → Event
  | .subscribe fs => .subscribe fs
  | .resubscribe => .resubscribe
  | .unsubscribe f => .unsubscribe f
  | .send id w => .send id (fun l => l.headD 0) (found c.table) w
  | .suback id codes => .suback id codes
  | .unsuback id => .unsuback id
  | .fail id => .fail id
  | .message t => .message t
  | .destroy => .destroy

def Cmd.ok (c : Conn) : Cmd → Bool
  | .subscribe fs => !fs.isEmpty && fs.all fun e => isValidTopicFilter e.1
  | .resubscribe => true
  | .unsubscribe f => isValidTopicFilter f
  | .send id _ => (c.request id).isSome
  | .suback id _ => match c.request id with
    | some { kind := .subscribe, .. } | some { kind := .resubscribe, .. } => true
    | _ => false
  | .unsuback id => match c.request id with
    | some { kind := .unsubscribe _, .. } => true
    | _ => false
  | .fail id => (c.request id).isSome
  | .message t => isValidTopic t
  | .destroy => true

def play : Conn × List Entry → List Cmd → Option (Conn × List Entry)
  | s, [] => some s
  | s, x :: xs =>
    if s.1.alive && x.ok s.1 then play ((step s.1 (x.event s.1)).1, s.2 ++ (step s.1 (x.event s.1)).2) xs else none

theorem Cmd.enabled {c : Conn} {x : Cmd} (h : x.ok c = true) : Enabled c (x.event c) := by
  cases x with
  | subscribe fs =>
    simp only [Cmd.ok, Bool.and_eq_true, List.all_eq_true] at h
    refine ⟨?_, h.2⟩
    intro e
    rw [e] at h
    simp at h
  | resubscribe => trivial
  | unsubscribe f => exact h
  | send id w =>
    simp only [Cmd.ok, Option.isSome_iff_exists] at h
    obtain ⟨r, hr⟩ := h
    refine ⟨r, hr, fun _ => .refl _, ?_⟩
    intro l hl
    cases l with
    | nil => exact absurd rfl hl
    | cons a l => simp
  | suback id codes =>
    simp only [Cmd.ok] at h
    split at h
    · next heq => exact ⟨_, heq, .inl rfl⟩
    · next heq => exact ⟨_, heq, .inr rfl⟩
    · cases h
  | unsuback id =>
    simp only [Cmd.ok] at h
    split at h
    · next heq => exact ⟨_, _, heq, rfl⟩
    · cases h
  | fail id =>
    simp only [Cmd.ok, Option.isSome_iff_exists] at h
    exact h
  | message t => exact h
  | destroy => trivial

theorem play_reachable (xs : List Cmd) : ∀ (s s' : Conn × List Entry), play s xs = some s' → Reachable s.1 s.2 → Reachable s'.1 s'.2 := by
  induction xs with
  | nil => intro s s' h hr; injection h with h; subst h; exact hr
  | cons x xs ih =>
    intro s s' h hr
    unfold play at h
    split at h
    · next hc =>
      rw [Bool.and_eq_true] at hc
      exact ih _ s' h (.step _ hr hc.1 (Cmd.enabled hc.2))
    · cases h

/-- A history that can be played is reachable. -/
theorem played {xs : List Cmd} {log : List Entry} (h : (play ({}, []) xs).map (·.2) = some log) :
    ∃ c, play ({}, []) xs = some (c, log) ∧ Reachable c log := by
  rw [Option.map_eq_some_iff] at h
  obtain ⟨⟨c, l⟩, h1, h2⟩ := h
  simp only at h2
  subst h2
  exact ⟨c, h1, play_reachable xs _ _ h1 .init⟩

theorem played' {xs : List Cmd} {log : List Entry} {b : Bool} (h : (play ({}, []) xs).map (fun s => (s.2, s.1.alive)) = some (log, b)) :
    ∃ c, Reachable c log ∧ c.alive = b := by
  cases hx : play ({}, []) xs with
  | none => rw [hx] at h; cases h
  | some s =>
    rw [hx] at h
    injection h with h
    injection h with h1 h2
    refine ⟨s.1, ?_, h2⟩
    rw [← h1]
    exact play_reachable xs _ _ hx .init

end Mqtt.Subs311
