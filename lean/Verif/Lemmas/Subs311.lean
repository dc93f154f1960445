import Verif.Spec.Subs311
import Verif.Props.C09
import Verif.Lemmas.TopicStrings

/-!
The subscriptions of an MQTT 3.1.1 connection follow its calls and packets (C83).
-/
namespace Mqtt.Subs311
open Mqtt Mqtt.Spec Mqtt.TopicTree

/-! ### Shared subscriptions -/

theorem afterSlash_eq {bs r : Bytes} (h : afterSlash bs = some r) : ∃ a, bs = a ++ 47 :: r ∧ 47 ∉ a := by
  induction bs with
  | nil => cases h
  | cons b bs ih =>
    unfold afterSlash at h
    split at h
    · next hb => cases h; exact ⟨[], by simp [hb], by simp⟩
    · next hb =>
      obtain ⟨a, e, hn⟩ := ih h
      exact ⟨b :: a, by simp [e], by simp [hn]; exact fun e => hb e.symm⟩

theorem afterSlash_of {a r : Bytes} (h : 47 ∉ a) : afterSlash (a ++ 47 :: r) = some r := by
  induction a with
  | nil => simp [afterSlash]
  | cons b a ih =>
    simp only [List.mem_cons, not_or] at h
    simp only [List.cons_append, afterSlash, if_neg (fun e => h.1 (Eq.symm e)), ih h.2]

theorem split_suffix (a r : Bytes) : ∃ pre, split 47 (a ++ 47 :: r) = pre ++ split 47 r := by
  induction a with
  | nil => exact ⟨[[]], by simp [split]⟩
  | cons b a ih =>
    obtain ⟨pre, e⟩ := ih
    simp only [List.cons_append, split, e]
    split
    · exact ⟨[] :: pre, rfl⟩
    · cases pre with
      | nil =>
        cases hs : split 47 r with
        | nil => exact absurd hs (split_ne_nil _ _)
        | cons l ls =>
          exfalso
          rw [List.nil_append] at e
          have h1 : ((split 47 (a ++ 47 :: r)).intersperse [47]).flatten = ((split 47 r).intersperse [47]).flatten := by rw [e]
          rw [← (split_levels (a ++ 47 :: r)).2.2, ← (split_levels r).2.2] at h1
          have := congrArg List.length h1
          simp at this
          omega
      | cons l ls => exact ⟨(b :: l) :: ls, rfl⟩

theorem normalTopic_some {f k : Bytes} (h : normalTopic f = some k) : ∃ a, f = a ++ 47 :: k ∧ k ≠ [] := by
  unfold normalTopic at h
  split at h
  · cases h
  · cases h
  · next r hr e =>
    cases h
    obtain ⟨a, e2, _⟩ := afterSlash_eq e
    refine ⟨f.take 8 ++ a, ?_, fun e => by subst e; exact hr rfl⟩
    rw [List.append_assoc, ← e2, List.take_append_drop]

theorem hashLast_tableKey {f k : Bytes} (hf : isValidTopicFilter f = true) (h : tableKey f = some k) : HashLast (split 47 k) := by
  have hl := hashLast_of_filter ((Props.C08_filter f).1 hf)
  unfold tableKey at h
  split at h
  · obtain ⟨a, e, _⟩ := normalTopic_some h
    obtain ⟨pre, e2⟩ := split_suffix a k
    intro p l q e3
    exact hl (pre ++ p) l q (by rw [e, e2, e3, List.append_assoc])
  · cases h; exact hl

theorem looksShared_iff (f : Bytes) : LooksShared f ↔ isShared f = true := by
  unfold LooksShared isShared sharePrefix
  rw [List.isPrefixOf_iff_prefix]
  constructor
  · rintro ⟨r, e⟩; exact ⟨r, e.symm⟩
  · rintro ⟨r, e⟩; exact ⟨r, e.symm⟩

theorem tableKey_shared {name g f : Bytes} (h : Shared name g f) : tableKey f = some g := by
  obtain ⟨e, h1, h2, h3⟩ := h
  have : isShared f = true := (looksShared_iff f).1 ⟨name ++ 47 :: g, by rw [e]; simp⟩
  unfold tableKey
  rw [if_pos this]
  cases name with
  | nil => exact absurd rfl h1
  | cons b name =>
    simp only [List.mem_cons, not_or] at h2
    unfold normalTopic
    rw [show f.drop 8 = name ++ 47 :: g by rw [e]; simp, afterSlash_of h2.2]
    cases g with
    | nil => exact absurd rfl h3
    | cons x g => rfl

theorem tableKey_plain {f : Bytes} (h : ¬ LooksShared f) : tableKey f = some f := by
  unfold tableKey
  rw [if_neg (fun e => h ((looksShared_iff f).2 e))]

/-! ### Logs -/

theorem book_append (key : Bytes → Option Bytes) (log out : List Entry) :
    book key (log ++ out) = out.foldl (Book.note key) (book key log) := List.foldl_append ..

/-- Not a call or packet. -/
def Entry.neutral : Entry → Bool
  | .called _ _ => false
  | .sent _ _ => false
  | .sentUnsubscribe _ _ => false
  | _ => true

theorem fold_neutral (key : Bytes → Option Bytes) (out : List Entry) (h : ∀ e ∈ out, e.neutral = true) :
    ∀ b, out.foldl (Book.note key) b = b := by
  induction out with
  | nil => intro b; rfl
  | cons e out ih =>
    intro b
    rw [List.foldl_cons, ih (fun x hx => h x (by simp [hx]))]
    have := h e (by simp)
    cases e <;> first | rfl | cases this

theorem book_neutral (key : Bytes → Option Bytes) {log out : List Entry} (h : ∀ e ∈ out, e.neutral = true) :
    book key (log ++ out) = book key log := by
  rw [book_append, fold_neutral key out h]

theorem release_neutral (us : List Nat) : ∀ refs, ∀ e ∈ (release refs us).2, e.neutral = true := by
  induction us with
  | nil => intro refs e he; cases he
  | cons u us ih =>
    intro refs e he
    unfold release at he
    split at he
    · rcases List.mem_cons.1 he with rfl | he
      · rfl
      · exact ih _ e he
    · rcases List.mem_append.1 he with he | he
      · split at he
        · simp at he; rw [he]; rfl
        · cases he
      · exact ih _ e he

theorem finish_neutral (c : Conn) (r : Request) (ok : Bool) : ∀ e ∈ (c.finish r ok).2, e.neutral = true := by
  intro e he
  unfold Conn.finish at he
  split at he
  · rcases List.mem_cons.1 he with rfl | he
    · rfl
    · exact release_neutral _ _ e he
  · split at he
    · cases he
    · simp at he; rw [he]; rfl
  · simp at he; rw [he]; rfl

theorem setTable_neutral (c : Conn) (t : Tree) : ∀ e ∈ (c.setTable t).2, e.neutral = true := release_neutral _ _

theorem finish_conn (c : Conn) (r : Request) (ok : Bool) : ∃ refs, (c.finish r ok).1 = { c with refs } := by
  unfold Conn.finish
  split
  · exact ⟨_, rfl⟩
  · split <;> exact ⟨c.refs, rfl⟩
  · exact ⟨c.refs, rfl⟩

theorem complete_conn (c : Conn) (r : Request) (ok : Bool) :
    ∃ refs, (c.complete r ok).1 = { c with requests := c.requests.filter (·.id ≠ r.id), refs } := by
  obtain ⟨refs, e⟩ := finish_conn { c with requests := c.requests.filter (·.id ≠ r.id) } r ok
  exact ⟨refs, e⟩

theorem complete_neutral (c : Conn) (r : Request) (ok : Bool) : ∀ e ∈ (c.complete r ok).2, e.neutral = true := finish_neutral _ _ _

/-! ### The invariant -/

def toSub (e : Nat × Nat) : Sub := { callback := 0, cleanup := true, userdata := some e.1, qos := e.2 }

def toTopic (e : Bytes × Nat × Nat) : Topic := { cur := .own e.1, qos := e.2.1, uid := some e.2.2 }

structure ReqOk (b : Book) (n : Nat) (r : Request) : Prop where
  lt : r.id < n
  sub : r.kind = .subscribe → ∃ fs, b.calls.lookup r.id = some (.subscribe fs) ∧ r.topics = fs.map toTopic ∧
    (∀ e ∈ fs, isValidTopicFilter e.1 = true) ∧
    (r.packet = none ∨ r.packet = some (r.topics.map fun x => (x.cur, x.qos))) ∧ (r.updated = true ↔ r.id ∈ b.seen)
  resub : r.kind = .resubscribe → b.calls.lookup r.id = some .resubscribe ∧ (r.packet = none ↔ r.id ∉ b.seen) ∧
    (r.packet = none → r.topics = []) ∧ ∀ x ∈ r.topics, x.uid = none
  unsub : ∀ f, r.kind = .unsubscribe f → b.calls.lookup r.id = some (.unsubscribe f) ∧ isValidTopicFilter f = true ∧
    (r.updated = true ↔ r.id ∈ b.seen)

structure Inv (c : Conn) (log : List Entry) : Prop where
  tree : TopicTree.Inv c.table.nodes
  rep : ∀ f, subAt c.table.nodes (split 47 f) = ((book tableKey log).subs f).map toSub
  paths : ∀ q s, subAt c.table.nodes q = some s → ∃ f, q = split 47 f
  hash : ∀ f, (book tableKey log).subs f ≠ none → HashLast (split 47 f)
  reqs : ∀ r ∈ c.requests, ReqOk (book tableKey log) c.nextId r
  nodup : (c.requests.map (·.id)).Nodup
  calls : ∀ e ∈ (book tableKey log).calls, e.1 < c.nextId
  seen : ∀ id ∈ (book tableKey log).seen, id < c.nextId

theorem inv_init : Inv {} [] := by
  constructor <;> simp [book, Tree.init, subAt]
  · exact TopicTree.inv_init

theorem inv_neutral {c c' : Conn} {log out : List Entry} (h : Inv c log) (hout : ∀ e ∈ out, e.neutral = true)
    (ht : c'.table = c.table) (hr : c'.requests.Sublist c.requests) (hn : c'.nextId = c.nextId) : Inv c' (log ++ out) := by
  constructor
  · rw [ht]; exact h.tree
  · rw [ht, book_neutral _ hout]; exact h.rep
  · rw [ht]; exact h.paths
  · rw [book_neutral _ hout]; exact h.hash
  · rw [book_neutral _ hout, hn]; exact fun r hr' => h.reqs r (hr.subset hr')
  · exact (hr.map _).nodup h.nodup
  · rw [book_neutral _ hout, hn]; exact h.calls
  · rw [book_neutral _ hout, hn]; exact h.seen

theorem inv_complete {c : Conn} {log : List Entry} (h : Inv c log) (r : Request) (ok : Bool) :
    Inv (c.complete r ok).1 (log ++ (c.complete r ok).2) := by
  obtain ⟨refs, e⟩ := complete_conn c r ok
  exact inv_neutral h (complete_neutral c r ok) (by rw [e]) (by rw [e]; exact List.filter_sublist) (by rw [e])

theorem lookup_new {calls : List (Nat × Call)} {n id : Nat} {x : Call} (h : id < n) :
    List.lookup id ((n, x) :: calls) = calls.lookup id := by
  have hne : (id == n) = false := by simp only [beq_eq_false_iff_ne]; omega
  simp [List.lookup, hne]

/-- A new request. -/
theorem inv_called {c c' : Conn} {log : List Entry} (h : Inv c log) (r : Request) (x : Call) (hid : r.id = c.nextId)
    (ht : c'.table = c.table) (hrs : c'.requests = c.requests ++ [r]) (hn : c'.nextId = c.nextId + 1)
    (hr : ReqOk { book tableKey log with calls := (c.nextId, x) :: (book tableKey log).calls } (c.nextId + 1) r) :
    Inv c' (log ++ [.called c.nextId x]) := by
  have hb : book tableKey (log ++ [.called c.nextId x]) =
      { book tableKey log with calls := (c.nextId, x) :: (book tableKey log).calls } := by rw [book_append]; rfl
  constructor
  · rw [ht]; exact h.tree
  · rw [ht, hb]; exact h.rep
  · rw [ht]; exact h.paths
  · rw [hb]; exact h.hash
  · rw [hb, hn, hrs]
    intro r' hr'
    rcases List.mem_append.1 hr' with hr' | hr'
    · have ho := h.reqs r' hr'
      constructor
      · have := ho.lt; omega
      · intro hk; simp only [lookup_new ho.lt]; exact ho.sub hk
      · intro hk; simp only [lookup_new ho.lt]; exact ho.resub hk
      · intro f hk; simp only [lookup_new ho.lt]; exact ho.unsub f hk
    · simp at hr'; rw [hr']; exact hr
  · rw [hrs, List.map_append, List.nodup_append]
    refine ⟨h.nodup, by simp, ?_⟩
    intro a ha b hb'
    simp only [List.map_cons, List.map_nil, List.mem_cons, List.not_mem_nil, or_false] at hb'
    obtain ⟨r', hr', rfl⟩ := List.mem_map.1 ha
    have := (h.reqs r' hr').lt
    omega
  · rw [hb, hn]
    intro e he
    rcases List.mem_cons.1 he with rfl | he
    · exact Nat.lt_succ_self _
    · have := h.calls e he; omega
  · rw [hb, hn]
    intro id hid
    have := h.seen id hid
    omega

/-! ### Packets -/

theorem insertable_spec (fs : List (Bytes × Nat × Nat)) : (insertable (fs.map toTopic)).2 = true →
    ∀ (m : Bytes → Option Sub) (m' : Bytes → Option (Nat × Nat)), (∀ f, m f = (m' f).map toSub) →
    ∀ f, ((insertable (fs.map toTopic)).1.map fun e : Bytes × Topic => (e.1, e.2.sub)).foldl
        (fun m e f => if f = e.1 then some e.2 else m f) m f = (after tableKey m' (.subscribe fs) f).map toSub := by
  induction fs with
  | nil => intro _ m m' h f; exact h f
  | cons e fs ih =>
    intro hok m m' h f
    simp only [List.map_cons, insertable] at hok ⊢
    have hf : (toTopic e).filter = e.1 := rfl
    rw [hf] at hok ⊢
    cases hk : tableKey e.1 with
    | none => rw [hk] at hok; cases hok
    | some k =>
      rw [hk] at hok
      simp only [List.map_cons, List.foldl_cons]
      simp only [after, List.foldl_cons, hk, Option.some.injEq]
      refine ih hok _ _ ?_ f
      intro f
      by_cases hfk : f = k
      · subst hfk; rw [if_pos rfl, if_pos rfl]; rfl
      · rw [if_neg hfk, if_neg (fun e => hfk e.symm)]; exact h f

theorem insertable_keys (ts : List Topic) : ∀ e ∈ (insertable ts).1, e.2 ∈ ts ∧ tableKey e.2.filter = some e.1 := by
  induction ts with
  | nil => intro e he; cases he
  | cons x ts ih =>
    intro e he
    unfold insertable at he
    split at he
    · cases he
    · next k hk =>
      rcases List.mem_cons.1 he with rfl | he
      · exact ⟨by simp, hk⟩
      · exact ⟨by simp [(ih e he).1], (ih e he).2⟩

theorem insertable_all (ts : List Topic) (h : (insertable ts).2 = true) :
    (insertable ts).1.map (·.2) = ts ∧ (insertable ts).1.map (fun e => some e.1) = ts.map fun x => tableKey x.filter := by
  induction ts with
  | nil => exact ⟨rfl, rfl⟩
  | cons x ts ih =>
    unfold insertable at h ⊢
    split at h
    · cases h
    · next k hk =>
      simp only at h ⊢
      obtain ⟨a, b⟩ := ih h
      simp [a, b, hk]

theorem after_ne_none {key : Bytes → Option Bytes} (fs : List (Bytes × Nat × Nat)) : ∀ (m : Bytes → Option (Nat × Nat)) (f : Bytes),
    after key m (.subscribe fs) f ≠ none → m f ≠ none ∨ ∃ e ∈ fs, key e.1 = some f := by
  induction fs with
  | nil => intro m f h; exact .inl h
  | cons e fs ih =>
    intro m f h
    rcases ih _ f h with h | ⟨x, hx, hk⟩
    · by_cases hk : key e.1 = some f
      · exact .inr ⟨e, by simp, hk⟩
      · simp only [if_neg hk] at h; exact .inl h
    · exact .inr ⟨x, by simp [hx], hk⟩

theorem eq_of_id {rs : List Request} (h : (rs.map (·.id)).Nodup) {x y : Request} (hx : x ∈ rs) (hy : y ∈ rs) (e : x.id = y.id) :
    x = y := by
  induction rs with
  | nil => cases hx
  | cons r rs ih =>
    simp only [List.map_cons, List.nodup_cons, List.mem_map, not_exists, not_and] at h
    rcases List.mem_cons.1 hx with h1 | h1 <;> rcases List.mem_cons.1 hy with h2 | h2
    · rw [h1, h2]
    · exact absurd (by rw [← h1, e]) (h.1 y h2)
    · exact absurd (by rw [← h2, e]) (h.1 x h1)
    · exact ih h.2 h1 h2

/-- A request that stays, and one that changed. -/
theorem mem_update {c : Conn} {r x : Request} (h : x ∈ (c.update r).requests) : x = r ∨ (x ∈ c.requests ∧ x.id ≠ r.id) := by
  unfold Conn.update at h
  simp only [List.mem_map] at h
  obtain ⟨y, hy, e⟩ := h
  split at e
  · exact .inl e.symm
  · next hne => subst e; exact .inr ⟨hy, hne⟩

theorem update_ids (c : Conn) (r : Request) : (c.update r).requests.map (·.id) = c.requests.map (·.id) := by
  unfold Conn.update
  simp only [List.map_map]
  apply List.map_congr_left
  intro x _
  simp only [Function.comp_apply]
  split
  · next h => exact h.symm
  · rfl

theorem ReqOk.packet {b : Book} {n : Nat} {r : Request} (h : ReqOk b n r) {id : Nat} (hid : r.id ≠ id) :
    ReqOk (b.packet tableKey id) n r := by
  have hc : (b.packet tableKey id).calls = b.calls := by
    unfold Book.packet; split
    · rfl
    · split <;> rfl
  have hs : r.id ∈ (b.packet tableKey id).seen ↔ r.id ∈ b.seen := by
    unfold Book.packet; split
    · rfl
    · split <;> simp [hid]
  constructor
  · exact h.lt
  · rw [hc, hs]; exact h.sub
  · rw [hc, hs]; exact h.resub
  · rw [hc, hs]; exact h.unsub

theorem packet_seen {b : Book} {key : Bytes → Option Bytes} {id : Nat} : id ∈ (b.packet key id).seen := by
  unfold Book.packet
  split
  · assumption
  · split <;> simp

theorem packet_calls {b : Book} {key : Bytes → Option Bytes} {id : Nat} : (b.packet key id).calls = b.calls := by
  unfold Book.packet; split
  · rfl
  · split <;> rfl

theorem packet_seen_mem {b : Book} {key : Bytes → Option Bytes} {id x : Nat} (h : x ∈ (b.packet key id).seen) : x = id ∨ x ∈ b.seen := by
  unfold Book.packet at h
  split at h
  · exact .inr h
  · split at h <;> simpa using h

/-- A packet of a request. -/
theorem inv_packet {c c' : Conn} {log out : List Entry} (h : Inv c log) {r : Request} (hr : r ∈ c.requests) (r' : Request) (hid : r'.id = r.id)
    (hb : book tableKey (log ++ out) = (book tableKey log).packet tableKey r.id)
    (hreq : c'.requests = (c.update r').requests) (hn : c'.nextId = c.nextId)
    (hok : ReqOk ((book tableKey log).packet tableKey r.id) c.nextId r')
    (htree : TopicTree.Inv c'.table.nodes)
    (hrep : ∀ f, subAt c'.table.nodes (split 47 f) = (((book tableKey log).packet tableKey r.id).subs f).map toSub)
    (hpaths : ∀ q s, subAt c'.table.nodes q = some s → ∃ f, q = split 47 f)
    (hhash : ∀ f, ((book tableKey log).packet tableKey r.id).subs f ≠ none → HashLast (split 47 f)) :
    Inv c' (log ++ out) := by
  constructor
  · exact htree
  · rw [hb]; exact hrep
  · exact hpaths
  · rw [hb]; exact hhash
  · rw [hb, hn, hreq]
    intro x hx
    rcases mem_update hx with rfl | ⟨hx, hne⟩
    · exact hok
    · exact (h.reqs x hx).packet (by rw [← hid]; exact hne)
  · rw [hreq, update_ids]; exact h.nodup
  · rw [hb, hn, packet_calls]; exact h.calls
  · rw [hb, hn]
    intro id hx
    rcases packet_seen_mem hx with rfl | hx
    · exact (h.reqs r hr).lt
    · exact h.seen id hx

/-- A packet that changes nothing. -/
theorem packet_same {b : Book} {key : Bytes → Option Bytes} {id : Nat} (h : id ∈ b.seen ∨ b.calls.lookup id = some .resubscribe) :
    (b.packet key id).subs = b.subs ∧ (b.packet key id).updates = b.updates := by
  unfold Book.packet
  rcases h with h | h
  · rw [if_pos h]; exact ⟨rfl, rfl⟩
  · split
    · exact ⟨rfl, rfl⟩
    · rw [h]; exact ⟨rfl, rfl⟩

theorem book_sent (log : List Entry) (key : Bytes → Option Bytes) (id : Nat) (fs : List (Option Bytes × Nat)) {out : List Entry}
    (h : ∀ e ∈ out, e.neutral = true) : book key (log ++ .sent id fs :: out) = (book key log).packet key id := by
  rw [book_append, List.foldl_cons, fold_neutral _ _ h]; rfl

theorem book_sentUnsubscribe (log : List Entry) (key : Bytes → Option Bytes) (id : Nat) (f : Bytes) {out : List Entry}
    (h : ∀ e ∈ out, e.neutral = true) : book key (log ++ .sentUnsubscribe id f :: out) = (book key log).packet key id := by
  rw [book_append, List.foldl_cons, fold_neutral _ _ h]; rfl

theorem inv_quiet {c : Conn} {log out : List Entry} (h : Inv c log) (hn : ∀ e ∈ out, e.neutral = true) : Inv c (log ++ out) := by
  have hb := book_neutral tableKey (log := log) hn
  constructor
  · exact h.tree
  · rw [hb]; exact h.rep
  · exact h.paths
  · rw [hb]; exact h.hash
  · rw [hb]; exact h.reqs
  · exact h.nodup
  · rw [hb]; exact h.calls
  · rw [hb]; exact h.seen

theorem inv_sendSubscribe {c : Conn} {log : List Entry} (h : Inv c log) {r : Request} (hr : r ∈ c.requests) (hk : r.kind = .subscribe)
    (pick : List Nat → Nat) (w : Bool) : Inv (c.sendSubscribe pick r w).1 (log ++ (c.sendSubscribe pick r w).2) := by
  obtain ⟨fs, hl, htop, hval, hpk, hup⟩ := (h.reqs r hr).sub hk
  have hpacket : r.packet.getD (r.topics.map fun x => (x.cur, x.qos)) = r.topics.map fun x => (x.cur, x.qos) := by
    rcases hpk with e | e <;> rw [e] <;> rfl
  unfold Conn.sendSubscribe
  simp only [hpacket]
  split
  · next hu =>
    have hs : r.id ∈ (book tableKey log).seen := hup.1 hu
    split
    · have hsame := packet_same (key := tableKey) (b := book tableKey log) (.inl hs)
      refine inv_packet h hr { r with packet := some (r.topics.map fun x => (x.cur, x.qos)) } rfl (book_sent _ _ _ _ (by simp)) rfl rfl ?_ h.tree ?_ h.paths ?_
      · constructor
        · exact (h.reqs r hr).lt
        · intro _; exact ⟨fs, by rw [packet_calls]; exact hl, htop, hval, .inr rfl, by simp [hu, packet_seen]⟩
        · intro hk2; simp only [hk] at hk2; cases hk2
        · intro f hk2; simp only [hk] at hk2; cases hk2
      · rw [hsame.1]; exact h.rep
      · rw [hsame.1]; exact h.hash
    · exact inv_complete h _ _
  · next hu =>
    have hns : r.id ∉ (book tableKey log).seen := fun e => hu (hup.2 e)
    split
    · next hw =>
      rw [Bool.and_eq_true] at hw
      have hb : ((book tableKey log).packet tableKey r.id).subs = after tableKey (book tableKey log).subs (.subscribe fs) := by
        unfold Book.packet; rw [if_neg hns, hl]
      have hspec := subscribe_spec pick h.tree ((insertable r.topics).1.map fun e : Bytes × Topic => (e.1, e.2.sub)) (by
        intro e he
        obtain ⟨x, hx, rfl⟩ := List.mem_map.1 he
        obtain ⟨hx1, hx2⟩ := insertable_keys _ x hx
        rw [htop] at hx1
        obtain ⟨y, hy, e⟩ := List.mem_map.1 hx1
        rw [← e] at hx2
        exact hashLast_tableKey (hval y hy) hx2)
      have hfold := Props.rep_fold ((insertable r.topics).1.map fun e : Bytes × Topic => (e.1, e.2.sub)) (subAt c.table.nodes)
        (fun f => ((book tableKey log).subs f).map toSub) h.rep h.paths
      refine inv_packet h hr { r with packet := some (r.topics.map fun x => (x.cur, x.qos)), updated := true } rfl
        (book_sent _ _ _ _ (setTable_neutral _ _)) rfl rfl ?_ hspec.1 ?_ ?_ ?_
      · constructor
        · exact (h.reqs r hr).lt
        · intro _; exact ⟨fs, by rw [packet_calls]; exact hl, htop, hval, .inr rfl, by simp [packet_seen]⟩
        · intro hk2; simp only [hk] at hk2; cases hk2
        · intro f hk2; simp only [hk] at hk2; cases hk2
      · intro f
        rw [hb]
        refine (hspec.2.1 _).trans ((hfold.1 f).trans ?_)
        rw [htop] at hw ⊢
        exact insertable_spec fs hw.1 _ _ (fun _ => rfl) f
      · intro q s hq
        exact hfold.2 q s ((hspec.2.1 q).symm.trans hq)
      · rw [hb]
        intro f hf
        rcases after_ne_none fs _ f hf with hf | ⟨e, he, hke⟩
        · exact h.hash f hf
        · exact hashLast_tableKey (hval e he) hke
    · have h := inv_quiet (out := [.unsent r.id]) h (by simp [Entry.neutral])
      rw [List.append_cons]
      generalize log ++ [Entry.unsent r.id] = log at h
      have hab := aborted_spec ((insertable r.topics).1.map fun e : Bytes × Topic => TxStep.insert e.1 e.2.sub) c.table h.tree.closed
      have h1 : Inv (Conn.setTable { c with refs := acquire c.refs ((insertable r.topics).1.filterMap fun e : Bytes × Topic => e.2.uid) }
          (aborted c.table ((insertable r.topics).1.map fun e : Bytes × Topic => .insert e.1 e.2.sub))).1
          (log ++ (Conn.setTable { c with refs := acquire c.refs ((insertable r.topics).1.filterMap fun e : Bytes × Topic => e.2.uid) }
          (aborted c.table ((insertable r.topics).1.map fun e : Bytes × Topic => .insert e.1 e.2.sub))).2) := by
        have hbn := book_neutral tableKey (log := log) (setTable_neutral { c with refs := acquire c.refs ((insertable r.topics).1.filterMap fun e : Bytes × Topic => e.2.uid) }
          (aborted c.table ((insertable r.topics).1.map fun e : Bytes × Topic => .insert e.1 e.2.sub)))
        constructor
        · show TopicTree.Inv (aborted _ _).nodes; rw [hab.1]; exact h.tree
        · rw [hbn]; show ∀ f, subAt (aborted _ _).nodes _ = _; rw [hab.1]; exact h.rep
        · show ∀ q s, subAt (aborted _ _).nodes q = _ → _; rw [hab.1]; exact h.paths
        · rw [hbn]; exact h.hash
        · rw [hbn]; exact h.reqs
        · exact h.nodup
        · rw [hbn]; exact h.calls
        · rw [hbn]; exact h.seen
      rw [← List.append_assoc]
      exact inv_complete h1 r false

theorem inv_sendResubscribe {c : Conn} {log : List Entry} (h : Inv c log) {r : Request} (hr : r ∈ c.requests) (hk : r.kind = .resubscribe)
    (order : List (Nat × Nat)) (w : Bool) : Inv (c.sendResubscribe order r w).1 (log ++ (c.sendResubscribe order r w).2) := by
  obtain ⟨hl, hpk⟩ := (h.reqs r hr).resub hk
  unfold Conn.sendResubscribe
  simp only
  split
  · exact inv_complete h _ _
  · split
    · have hsame := packet_same (key := tableKey) (b := book tableKey log) (id := r.id) (.inr hl)
      refine inv_packet h hr { r with
          topics := order.map fun e => { cur := .table e.1, qos := e.2, uid := none : Topic }
          packet := some (r.packet.getD ((order.map fun e => { cur := .table e.1, qos := e.2, uid := none : Topic }).map fun x => (x.cur, x.qos))) } rfl (book_sent _ _ _ _ (by simp)) rfl rfl ?_ h.tree ?_ h.paths ?_
      · constructor
        · exact (h.reqs r hr).lt
        · intro hk2; simp only [hk] at hk2; cases hk2
        · intro _
          refine ⟨by rw [packet_calls]; exact hl, by simp [packet_seen], by simp, ?_⟩
          intro x hx
          simp only [List.mem_map] at hx
          obtain ⟨e, _, rfl⟩ := hx
          rfl
        · intro f hk2; simp only [hk] at hk2; cases hk2
      · rw [hsame.1]; exact h.rep
      · rw [hsame.1]; exact h.hash
    · exact inv_complete h _ _

theorem inv_sendUnsubscribe {c : Conn} {log : List Entry} (h : Inv c log) {r : Request} (hr : r ∈ c.requests) {f : Bytes}
    (hk : r.kind = .unsubscribe f) (pick : List Nat → Nat) (w : Bool) :
    Inv (c.sendUnsubscribe pick r f w).1 (log ++ (c.sendUnsubscribe pick r f w).2) := by
  obtain ⟨hl, hv, hup⟩ := (h.reqs r hr).unsub f hk
  unfold Conn.sendUnsubscribe
  split
  · next hu =>
    split
    · have hsame := packet_same (key := tableKey) (b := book tableKey log) (id := r.id) (.inl (hup.1 hu))
      have hreq : c.requests = (c.update r).requests := by
        unfold Conn.update
        rw [eq_comm]
        show c.requests.map _ = c.requests
        conv => rhs; rw [← List.map_id c.requests]
        apply List.map_congr_left
        intro x hx
        split
        · next e =>
          exact eq_of_id h.nodup hr hx e.symm
        · rfl
      refine inv_packet h hr r rfl (book_sentUnsubscribe _ _ _ _ (by simp)) hreq rfl ?_ h.tree ?_ h.paths ?_
      · constructor
        · exact (h.reqs r hr).lt
        · intro hk2; simp only [hk] at hk2; cases hk2
        · intro hk2; simp only [hk] at hk2; cases hk2
        · intro g hk2; rw [hk] at hk2; cases hk2
          exact ⟨by rw [packet_calls]; exact hl, hv, by simp [hu, packet_seen]⟩
      · rw [hsame.1]; exact h.rep
      · rw [hsame.1]; exact h.hash
    · exact inv_complete h _ _
  · next hu =>
    have hns : r.id ∉ (book tableKey log).seen := fun e => hu (hup.2 e)
    cases hkey : tableKey f with
    | none => exact inv_complete h _ _
    | some k =>
      simp only
      split
      · have hb : ((book tableKey log).packet tableKey r.id).subs = fun g => if k = g then none else (book tableKey log).subs g := by
          unfold Book.packet; rw [if_neg hns, hl]; simp [after, hkey]
        have hspec := unsubscribe_spec pick h.tree k
        refine inv_packet h hr { r with updated := true } rfl (book_sentUnsubscribe _ _ _ _ (setTable_neutral _ _)) rfl rfl ?_ hspec.1 ?_ ?_ ?_
        · constructor
          · exact (h.reqs r hr).lt
          · intro hk2; simp only [hk] at hk2; cases hk2
          · intro hk2; simp only [hk] at hk2; cases hk2
          · intro g hk2
            simp only [hk] at hk2; cases hk2
            exact ⟨by rw [packet_calls]; exact hl, hv, by simp [packet_seen]⟩
        · intro g
          rw [hb]
          refine (hspec.2.1 _).trans ?_
          by_cases hg : g = k
          · subst hg; simp
          · simp only [if_neg (fun e => hg (Props.levels_inj e)), if_neg (fun e : k = g => hg e.symm)]; exact h.rep g
        · intro q s hq
          have := (hspec.2.1 q).symm.trans hq
          split at this
          · cases this
          · exact h.paths q s this
        · rw [hb]
          intro g hg
          by_cases e : k = g
          · simp only [if_pos e] at hg; exact absurd rfl hg
          · simp only [if_neg e] at hg; exact h.hash g hg
      · exact inv_complete h _ _

/-! ### Histories -/

theorem request_mem {c : Conn} {id : Nat} {r : Request} (h : c.request id = some r) : r ∈ c.requests ∧ r.id = id := by
  unfold Conn.request at h
  exact ⟨List.mem_of_find?_eq_some h, by simpa using List.find?_some h⟩

theorem numbered_eq (fs : List (Bytes × Nat)) : ∀ n, (numbered n fs).map (fun e => (e.1, e.2.1)) = fs := by
  induction fs with
  | nil => intro n; rfl
  | cons e fs ih => intro n; simp [numbered, ih]

theorem numbered_valid {fs : List (Bytes × Nat)} {n : Nat} (h : ∀ e ∈ fs, isValidTopicFilter e.1 = true) :
    ∀ e ∈ numbered n fs, isValidTopicFilter e.1 = true := by
  intro e he
  have : (e.1, e.2.1) ∈ (numbered n fs).map (fun e => (e.1, e.2.1)) := List.mem_map.2 ⟨e, he, rfl⟩
  rw [numbered_eq] at this
  exact h _ this

theorem lookup_same (n : Nat) (x : Call) (calls : List (Nat × Call)) : List.lookup n ((n, x) :: calls) = some x := by
  simp [List.lookup]

theorem inv_suback {c : Conn} {log : List Entry} (h : Inv c log) (r : Request) (codes : List Nat) :
    Inv (c.suback r codes).1 (log ++ (c.suback r codes).2) := by
  unfold Conn.suback
  split
  · exact inv_neutral h (by simp [Entry.neutral]) rfl (List.Sublist.refl _) rfl
  · exact inv_complete h _ _

theorem uses_neutral (c : Conn) (us : List Nat) : ∀ e ∈ c.uses us, e.neutral = true := by
  intro e he
  unfold Conn.uses at he
  rw [List.mem_flatMap] at he
  obtain ⟨u, _, he⟩ := he
  split at he
  · simp at he; rw [he]; rfl
  · cases he

theorem inv_step {c : Conn} {log : List Entry} (h : Inv c log) {e : Event} (hen : Enabled c e) :
    Inv (step c e).1 (log ++ (step c e).2) ∨ e = .destroy := by
  have hns : c.nextId ∉ (book tableKey log).seen := fun hx => Nat.lt_irrefl _ (h.seen _ hx)
  cases e with
  | subscribe fs =>
    refine .inl (inv_called h _ _ rfl rfl rfl rfl ?_)
    constructor
    · exact Nat.lt_succ_self _
    · intro _
      exact ⟨_, lookup_same _ _ _, rfl, numbered_valid hen.2, .inl rfl, by simp [hns]⟩
    · intro hk; cases hk
    · intro f hk; cases hk
  | resubscribe =>
    refine .inl (inv_called h _ _ rfl rfl rfl rfl ?_)
    constructor
    · exact Nat.lt_succ_self _
    · intro hk; cases hk
    · intro _; exact ⟨lookup_same _ _ _, by simp [hns], fun _ => rfl, by simp⟩
    · intro f hk; cases hk
  | unsubscribe f =>
    refine .inl (inv_called h _ _ rfl rfl rfl rfl ?_)
    constructor
    · exact Nat.lt_succ_self _
    · intro hk; cases hk
    · intro hk; cases hk
    · intro g hk; cases hk; exact ⟨lookup_same _ _ _, hen, by simp [hns]⟩
  | send id pick order w =>
    obtain ⟨r, hr, _⟩ := hen
    simp only [step, hr]
    refine .inl ?_
    split
    · next hk => exact inv_sendSubscribe h (request_mem hr).1 hk pick w
    · next hk => exact inv_sendResubscribe h (request_mem hr).1 hk order w
    · next f hk => exact inv_sendUnsubscribe h (request_mem hr).1 hk pick w
  | suback id codes =>
    obtain ⟨r, hr, _⟩ := hen
    simp only [step, hr]
    exact .inl (inv_suback h r codes)
  | unsuback id =>
    obtain ⟨r, f, hr, _⟩ := hen
    simp only [step, hr]
    exact .inl (inv_complete h r true)
  | fail id =>
    obtain ⟨r, hr⟩ := hen
    simp only [step, hr]
    exact .inl (inv_complete h r false)
  | message topic =>
    simp only [step]
    refine .inl ?_
    split
    · exact inv_neutral h (by simp [Entry.neutral]) rfl (List.Sublist.refl _) rfl
    · refine inv_neutral h ?_ rfl (List.Sublist.refl _) rfl
      intro e he
      rcases List.mem_append.1 he with he | he
      · exact uses_neutral _ _ e he
      · simp at he; rw [he]; rfl
  | destroy => exact .inr rfl

theorem completeAll_conn (ok : Bool) (rs : List Request) : ∀ c : Conn, (c.completeAll ok rs).1.alive = c.alive := by
  induction rs with
  | nil => intro c; rfl
  | cons r rs ih =>
    intro c
    unfold Conn.completeAll
    simp only
    rw [ih]
    obtain ⟨refs, e⟩ := complete_conn c r ok
    rw [e]

theorem reachable_inv {c : Conn} {log : List Entry} (h : Reachable c log) : c.alive = true → Inv c log := by
  induction h with
  | init => intro _; exact inv_init
  | step e h ha hen ih =>
    intro hal
    rcases inv_step (ih ha) hen with hi | rfl
    · exact hi
    · exfalso
      simp only [step, completeAll_conn] at hal
      cases hal

end Mqtt.Subs311
