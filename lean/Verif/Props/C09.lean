import Verif.Lemmas.TopicTree
import Verif.Props.C08

/-!
C09, C10, C12: the 3.1.1 subscription table as a map from filters to handlers, its dispatch of
incoming messages, and aborted transactions.
-/
namespace Mqtt.Props
open Mqtt Mqtt.Spec Mqtt.TopicTree

/-- What the 3.1.1 client does to the table: SUBSCRIBE of one or several filters, UNSUBSCRIBE of one,
a transaction of inserts and removes that is rolled back. -/
inductive TableOp where
  | subscribe (fs : List (Bytes × Sub))
  | unsubscribe (f : Bytes)
  | abort (steps : List TxStep)

/-- One operation on the table. `pick` is the hash table's iteration order during the operation. -/
def tableStep (t : Tree) (op : (List Nat → Nat) × TableOp) : Tree :=
  match op.2 with
  | .subscribe fs => TopicTree.subscribe op.1 t fs
  | .unsubscribe f => TopicTree.unsubscribe op.1 t f
  | .abort steps => aborted t steps

/-- The table after a history of operations. -/
def tableRun (ops : List ((List Nat → Nat) × TableOp)) : Tree := ops.foldl tableStep Tree.init

/-- Filters reach the table only after `aws_mqtt_is_valid_topic_filter` accepted them (client.c:2108,
2290, 2465). -/
def LegalOp (op : (List Nat → Nat) × TableOp) : Prop :=
  match op.2 with
  | .subscribe fs => ∀ e ∈ fs, TopicFilter e.1
  | _ => True

/-- Specification: a map from filters to subscriptions, updated by each operation in turn. -/
def mapStep (m : Bytes → Option Sub) (op : (List Nat → Nat) × TableOp) : Bytes → Option Sub :=
  match op.2 with
  | .subscribe fs => fs.foldl (fun m e f => if f = e.1 then some e.2 else m f) m
  | .unsubscribe g => fun f => if f = g then none else m f
  | .abort _ => m

def mapRun (ops : List ((List Nat → Nat) × TableOp)) : Bytes → Option Sub := ops.foldl mapStep fun _ => none

/-- Specification: the user data a cleanup call for this subscription receives. -/
def disposal (s : Sub) : List Nat := if s.cleanup then s.userdata.toList else []

/-- Specification: user data of the subscriptions an operation puts into the table. -/
def inserted (op : (List Nat → Nat) × TableOp) : List Nat :=
  match op.2 with
  | .subscribe fs => fs.flatMap fun e => disposal e.2
  | _ => []

theorem cleanupOf_some (s : Sub) : cleanupOf (some s) = disposal s := by
  obtain ⟨a, b, c, d⟩ := s
  cases b <;> cases c <;> rfl

theorem levels_inj {f g : Bytes} (h : split 47 f = split 47 g) : f = g :=
  (split_levels f).2.2.trans (by rw [h]; exact (split_levels g).2.2.symm)

/-- The representation of a map of filters by a map of paths. -/
def Rep (t : Tree) (m : Bytes → Option Sub) : Prop :=
  (∀ f, subAt t.nodes (split 47 f) = m f) ∧ ∀ q s, subAt t.nodes q = some s → ∃ f, q = split 47 f

theorem rep_fold (fs : List (Bytes × Sub)) : ∀ (g : Path → Option Sub) (m : Bytes → Option Sub),
    (∀ f, g (split 47 f) = m f) → (∀ q s, g q = some s → ∃ f, q = split 47 f) →
    (∀ f, fs.foldl (fun (g : Path → Option Sub) e => fun q => if q = split 47 e.1 then some e.2 else g q) g (split 47 f) =
      fs.foldl (fun m e f => if f = e.1 then some e.2 else m f) m f) ∧
    (∀ q s, fs.foldl (fun (g : Path → Option Sub) e => fun q => if q = split 47 e.1 then some e.2 else g q) g q = some s →
      ∃ f, q = split 47 f) := by
  induction fs with
  | nil => intro g m h1 h2; exact ⟨h1, h2⟩
  | cons e fs ih =>
    intro g m h1 h2
    simp only [List.foldl_cons]
    apply ih
    · intro f
      by_cases hf : f = e.1
      · simp [hf]
      · rw [if_neg hf, if_neg (fun h => hf (levels_inj h)), h1]
    · intro q s
      split
      · next hq => intro _; exact ⟨_, hq⟩
      · exact h2 q s

theorem tableStep_spec {t : Tree} {m : Bytes → Option Sub} (h : Inv t.nodes) (hr : Rep t m)
    (op : (List Nat → Nat) × TableOp) (hop : LegalOp op) :
    Inv (tableStep t op).nodes ∧ Rep (tableStep t op) (mapStep m op) ∧
    ∀ u, (tableStep t op).cleaned.count u + (held (tableStep t op).nodes).count u =
      t.cleaned.count u + (held t.nodes).count u + (inserted op).count u := by
  obtain ⟨pick, op⟩ := op
  cases op with
  | subscribe fs =>
    obtain ⟨s1, s2, s3⟩ := subscribe_spec pick h fs (fun e he => hashLast_of_filter (hop e he))
    refine ⟨s1, ?_, ?_⟩
    · have := rep_fold fs (subAt t.nodes) m hr.1 hr.2
      exact ⟨fun f => (s2 _).trans (this.1 f), fun q s hq => this.2 q s ((s2 q).symm.trans hq)⟩
    · intro u
      have e : (fun e : Bytes × Sub => cleanupOf (some e.2)) = fun e => disposal e.2 := by
        funext e; exact cleanupOf_some _
      rw [e] at s3
      exact s3 u
  | unsubscribe f =>
    obtain ⟨s1, s2, s3⟩ := unsubscribe_spec pick h f
    refine ⟨s1, ⟨?_, ?_⟩, s3⟩
    · intro g
      simp only [tableStep, mapStep]
      rw [s2]
      by_cases hg : g = f
      · simp [hg]
      · rw [if_neg hg, if_neg (fun e => hg (levels_inj e)), hr.1]
    · intro q s
      simp only [tableStep]
      rw [s2]
      split
      · intro e; cases e
      · exact hr.2 q s
  | abort steps =>
    obtain ⟨s1, s2⟩ := aborted_spec steps t h.closed
    simp only [tableStep, mapStep]
    refine ⟨s1 ▸ h, ?_, ?_⟩
    · unfold Rep; rw [s1]; exact hr
    · intro u; rw [s1, s2]; simp [inserted]

theorem tableRun_spec (ops : List ((List Nat → Nat) × TableOp)) (hops : ∀ op ∈ ops, LegalOp op) :
    Inv (tableRun ops).nodes ∧ Rep (tableRun ops) (mapRun ops) ∧
    ∀ u, (tableRun ops).cleaned.count u + (held (tableRun ops).nodes).count u = (ops.flatMap inserted).count u := by
  have key : ∀ (ops : List ((List Nat → Nat) × TableOp)) (t : Tree) (m : Bytes → Option Sub),
      (∀ op ∈ ops, LegalOp op) → Inv t.nodes → Rep t m →
      Inv (ops.foldl tableStep t).nodes ∧ Rep (ops.foldl tableStep t) (ops.foldl mapStep m) ∧
      ∀ u, (ops.foldl tableStep t).cleaned.count u + (held (ops.foldl tableStep t).nodes).count u =
        t.cleaned.count u + (held t.nodes).count u + (ops.flatMap inserted).count u := by
    intro ops
    induction ops with
    | nil => intro t m _ h hr; exact ⟨h, hr, fun u => by simp⟩
    | cons op ops ih =>
      intro t m hl h hr
      obtain ⟨a1, a2, a3⟩ := tableStep_spec h hr op (hl op (by simp))
      obtain ⟨b1, b2, b3⟩ := ih _ _ (fun o ho => hl o (by simp [ho])) a1 a2
      refine ⟨b1, b2, ?_⟩
      intro u
      rw [List.foldl_cons, b3, a3, List.flatMap_cons, List.count_append, Nat.add_assoc]
  have hrep : Rep Tree.init fun _ => none := by
    constructor
    · intro f; rfl
    · intro q s h; exact absurd h (by simp [subAt, Tree.init])
  have := key ops Tree.init (fun _ => none) hops inv_init hrep
  refine ⟨this.1, this.2.1, ?_⟩
  intro u
  rw [tableRun, this.2.2 u]
  simp [Tree.init, held]

theorem held_iterate (t : Tree) : held t.nodes = (iterate t).flatMap fun e => disposal e.2 := by
  unfold held iterate
  induction t.nodes with
  | nil => rfl
  | cons e l ih =>
    obtain ⟨p, n⟩ := e
    cases hs : n.sub with
    | none => simp [hs, ih, show cleanupOf (none : Option TopicTree.Sub) = [] from rfl]
    | some s => simp [hs, ih, cleanupOf_some]

theorem mem_iterate {t : Tree} (h : t.nodes.Nodup) {p : Path} {s : Sub} :
    (p, s) ∈ iterate t ↔ subAt t.nodes p = some s := by
  unfold iterate subAt
  rw [List.mem_filterMap]
  constructor
  · rintro ⟨⟨q, n⟩, he, hs⟩
    simp only [Option.map_eq_some_iff, Prod.mk.injEq] at hs
    obtain ⟨s', h1, rfl, rfl⟩ := hs
    rw [(AMap.mem_iff_get h).1 he]
    exact h1
  · intro hs
    cases hg : t.nodes.get p with
    | none => rw [hg] at hs; cases hs
    | some n =>
      rw [hg] at hs
      exact ⟨(p, n), (AMap.mem_iff_get h).2 hg, by simp only [Option.bind_some] at hs; simp [hs]⟩

theorem iterate_keys_nodup {t : Tree} (h : t.nodes.Nodup) : ((iterate t).map (·.1)).Nodup := by
  have hsub : ((iterate t).map (·.1)).Sublist (t.nodes.map (·.1)) := by
    unfold iterate
    induction t.nodes with
    | nil => exact .slnil
    | cons e l ih =>
      rw [List.filterMap_cons]
      cases hs : e.2.sub with
      | none => simp only [Option.map_none]; exact ih.cons _
      | some s => simp only [Option.map_some, List.map_cons]; exact ih.cons_cons _
  exact List.Sublist.nodup hsub h

/-- After any history, the subscriptions the table lists are those of the last-writer-wins map, each
once. -/
theorem C10_contents (ops : List ((List Nat → Nat) × TableOp)) (hops : ∀ op ∈ ops, LegalOp op) :
    (∀ f s, mapRun ops f = some s ↔ (split 47 f, s) ∈ iterate (tableRun ops)) ∧
    (∀ p s, (p, s) ∈ iterate (tableRun ops) → ∃ f, Levels f p ∧ mapRun ops f = some s) ∧
    ((iterate (tableRun ops)).map (·.1)).Nodup := by
  obtain ⟨h, hr, _⟩ := tableRun_spec ops hops
  refine ⟨?_, ?_, iterate_keys_nodup h.nodup⟩
  · intro f s; rw [mem_iterate h.nodup, hr.1]
  · intro p s hp
    rw [mem_iterate h.nodup] at hp
    obtain ⟨f, rfl⟩ := hr.2 p s hp
    exact ⟨f, split_levels f, (hr.1 f).symm.trans hp⟩

/-- After any history, every user data put into the table has either been passed to its cleanup
function or is still in the table: counted with multiplicity, cleaned + listed = inserted. -/
theorem C10_user_data (ops : List ((List Nat → Nat) × TableOp)) (hops : ∀ op ∈ ops, LegalOp op) (u : Nat) :
    (tableRun ops).cleaned.count u + ((iterate (tableRun ops)).flatMap fun e => disposal e.2).count u =
      (ops.flatMap inserted).count u := by
  rw [← held_iterate]; exact (tableRun_spec ops hops).2.2 u

/-- Destroying the table cleans up what is left, so every user data is cleaned up exactly once. -/
theorem C10_destroyed (ops : List ((List Nat → Nat) × TableOp)) (hops : ∀ op ∈ ops, LegalOp op) (u : Nat) :
    (cleanUp (tableRun ops)).cleaned.count u = (ops.flatMap inserted).count u := by
  rw [← (tableRun_spec ops hops).2.2 u]
  have e : (tableRun ops).nodes.filter (fun e => List.isPrefixOf [] e.1) = (tableRun ops).nodes :=
    List.filter_eq_self.2 fun _ _ => by simp
  rw [cleanUp, cleanedBelow, e, List.count_append, held]

/-- A filter `parent/#` whose parent already matches the topic. -/
def ParentHash (f t : List Bytes) : Prop := ∃ parent, f = parent ++ [[35]] ∧ Matches parent t

theorem matches_nil_left (ts : List Bytes) : Matches [] ts ↔ ts = [] := by
  cases ts <;> simp [Matches]

theorem matches_cons_ne {x : Bytes} {f : List Bytes} (h : ¬ (x = [35] ∧ f = [])) (t : Bytes) (ts : List Bytes) :
    Matches (x :: f) (t :: ts) ↔ (x = [43] ∨ x = t) ∧ Matches f ts := by
  rw [Matches]
  intro e h2; exact h ⟨e, h2⟩

theorem matches_cons_nil {x : Bytes} {f : List Bytes} (h : ¬ (x = [35] ∧ f = [])) : ¬ Matches (x :: f) [] := by
  rw [Matches]
  · exact id
  · intro e; simp at e; exact h e
  · simp
  · simp

theorem hashLast_tail {x : Bytes} {f : List Bytes} (h : HashLast (x :: f)) : HashLast f :=
  fun pre l post e => h (x :: pre) l post (by simp [e])

theorem treeMatch_iff : ∀ (f ts : List Bytes), HashLast f → f ≠ [] → NoWild ts →
    (TreeMatch f ts ↔ Matches f ts ∧ ¬ ParentHash f ts) := by
  intro f
  induction f with
  | nil => intro ts _ h; exact absurd rfl h
  | cons x f ih =>
    intro ts hf _ hw
    cases ts with
    | nil =>
      simp only [TreeMatch, false_iff, not_and]
      intro hm hnp
      apply hnp
      by_cases hx : x = [35] ∧ f = []
      · exact ⟨[], by simp [hx], by simp [Matches]⟩
      · exact absurd hm (matches_cons_nil hx)
    | cons t ts =>
      have hwt := hw t (by simp)
      by_cases hx : x = [35] ∧ f = []
      · obtain ⟨rfl, rfl⟩ := hx
        simp only [TreeMatch, true_and, true_or, true_iff]
        refine ⟨by simp [Matches], ?_⟩
        rintro ⟨par, e, hp⟩
        cases par with
        | nil => simp [Matches] at hp
        | cons y p => simp at e
      · rw [TreeMatch, matches_cons_ne hx]
        simp only [hx, false_or]
        cases f with
        | nil =>
          cases ts with
          | nil =>
            simp only [TreeMatch, Matches, and_true]
            constructor
            · intro h
              refine ⟨h, ?_⟩
              rintro ⟨par, e, hp⟩
              cases par with
              | nil => simp [Matches] at hp
              | cons y p => simp at e
            · exact And.left
          | cons u ts => simp [TreeMatch, Matches]
        | cons y f =>
          rw [ih ts (hashLast_tail hf) (by simp) (fun z hz => hw z (by simp [hz]))]
          have hx35 : x ≠ [35] := fun e => hf [] y f (by simp [e])
          have hpar : (x = [43] ∨ x = t) → (ParentHash (x :: y :: f) (t :: ts) ↔ ParentHash (y :: f) ts) := by
            intro hxt
            constructor
            · rintro ⟨par, e, hp⟩
              cases par with
              | nil => simp at e
              | cons z p =>
                simp only [List.cons_append, List.cons.injEq] at e
                refine ⟨p, e.2, ?_⟩
                rw [matches_cons_ne (by rintro ⟨h1, _⟩; exact hx35 (e.1.trans h1))] at hp
                exact hp.2
            · rintro ⟨p, e, hp⟩
              refine ⟨x :: p, by simp [e], ?_⟩
              rw [matches_cons_ne (fun h => hx35 h.1)]
              exact ⟨hxt, hp⟩
          constructor
          · rintro ⟨h1, h2, h3⟩; exact ⟨⟨h1, h2⟩, fun h => h3 ((hpar h1).1 h)⟩
          · rintro ⟨⟨h1, h2⟩, h3⟩; exact ⟨h1, h2, fun h => h3 ((hpar h1).2 h)⟩

theorem noWild_of_topic {t : Bytes} (h : TopicName t) : NoWild (split 47 t) := by
  intro l hl
  constructor
  · rintro rfl; exact h.2.2.2.1 ((mem_of_mem_split (by decide)).2 ⟨_, hl, by simp⟩)
  · rintro rfl; exact h.2.2.2.2 ((mem_of_mem_split (by decide)).2 ⟨_, hl, by simp⟩)

theorem subAt_filter_shape {ops : List ((List Nat → Nat) × TableOp)} (hops : ∀ op ∈ ops, LegalOp op) {f : Bytes} {s : Sub}
    (h : mapRun ops f = some s) : TopicFilter f := by
  have key : ∀ (ops : List ((List Nat → Nat) × TableOp)) (m : Bytes → Option Sub), (∀ op ∈ ops, LegalOp op) →
      (∀ f s, m f = some s → TopicFilter f) → ∀ f s, ops.foldl mapStep m f = some s → TopicFilter f := by
    intro ops
    induction ops with
    | nil => intro m _ hm; exact hm
    | cons op ops ih =>
      intro m hl hm
      apply ih (mapStep m op) (fun o ho => hl o (by simp [ho]))
      have hop := hl op (by simp)
      obtain ⟨pick, op⟩ := op
      cases op with
      | subscribe fs =>
        simp only [mapStep]
        have : ∀ (fs : List (Bytes × Sub)) (m : Bytes → Option Sub), (∀ e ∈ fs, TopicFilter e.1) →
            (∀ f s, m f = some s → TopicFilter f) →
            ∀ f s, fs.foldl (fun m e f => if f = e.1 then some e.2 else m f) m f = some s → TopicFilter f := by
          intro fs
          induction fs with
          | nil => intro m _ hm; exact hm
          | cons e fs ih =>
            intro m h1 hm
            apply ih _ (fun e he => h1 e (by simp [he]))
            intro f s
            show (if f = e.1 then some e.2 else m f) = some s → _
            split
            · next h => intro _; rw [h]; exact h1 e (by simp)
            · exact hm f s
        exact this fs m hop hm
      | unsubscribe g =>
        intro f s
        simp only [mapStep]
        split
        · intro h; cases h
        · exact hm f s
      | abort steps => exact hm
  exact key ops (fun _ => none) hops (fun _ _ h => by cases h) f s h

/-- Dispatch after any history, for any topic name: no NULL callback is called; the calls for a
filter are one call of its current subscription when it matches and is not `parent/#` with a parent
that matches, and none otherwise; and only current subscriptions are called. What is missing for C09
is the case `parent/#`, see `C09_violated`. -/
theorem C09_dispatch_partial (ops : List ((List Nat → Nat) × TableOp)) (hops : ∀ op ∈ ops, LegalOp op)
    (topic : Bytes) (htopic : TopicName topic) :
    ∃ calls, publish (tableRun ops) topic = some calls ∧
    (∀ f s, mapRun ops f = some s → Matches (split 47 f) (split 47 topic) → ¬ ParentHash (split 47 f) (split 47 topic) →
      calls.filter (fun c => c.1 = split 47 f) = [(split 47 f, s)]) ∧
    (∀ f, (mapRun ops f = none ∨ ¬ Matches (split 47 f) (split 47 topic)) →
      calls.filter (fun c => c.1 = split 47 f) = []) ∧
    (∀ c ∈ calls, ∃ f, Levels f c.1 ∧ mapRun ops f = some c.2) := by
  obtain ⟨h, hr, _⟩ := tableRun_spec ops hops
  obtain ⟨calls, h1, _, h3⟩ := publishGo_spec h (split 47 topic) [] (noWild_of_topic htopic)
  simp only [List.nil_append] at h3
  refine ⟨calls, h1, ?_, ?_, ?_⟩
  · intro f s hf hm hp
    have hfil := subAt_filter_shape hops hf
    rw [h3, if_pos ((treeMatch_iff _ _ (hashLast_of_filter hfil) (split_ne_nil _ _) (noWild_of_topic htopic)).2 ⟨hm, hp⟩),
      hr.1, hf]
    rfl
  · intro f hf
    cases hm : mapRun ops f with
    | none => rw [h3, hr.1, hm]; simp
    | some s =>
      rcases hf with hf | hf
      · rw [hm] at hf; cases hf
      · rw [h3, if_neg]
        intro ht
        exact hf ((treeMatch_iff _ _ (hashLast_of_filter (subAt_filter_shape hops hm)) (split_ne_nil _ _)
          (noWild_of_topic htopic)).1 ht).1
  · rintro ⟨p, s'⟩ hc
    have : (p, s') ∈ calls.filter (fun e => e.1 = p) := by simp [hc]
    rw [h3] at this
    split at this
    · simp only [List.mem_map, Option.mem_toList] at this
      obtain ⟨s, hs, e⟩ := this
      cases e
      obtain ⟨f, hf⟩ := hr.2 _ _ hs
      exact ⟨f, hf ▸ split_levels f, by rw [← hr.1, ← hf]; exact hs⟩
    · simp at this

/-- C09 fails: whenever `parent/#` is subscribed and `parent` matches the topic, the filter matches
but its subscription is not called. -/
theorem C09_violated (ops : List ((List Nat → Nat) × TableOp)) (hops : ∀ op ∈ ops, LegalOp op)
    (topic : Bytes) (htopic : TopicName topic) (f : Bytes) (s : Sub) (hf : mapRun ops f = some s)
    (_hm : Matches (split 47 f) (split 47 topic)) (hp : ParentHash (split 47 f) (split 47 topic)) :
    ∃ calls, publish (tableRun ops) topic = some calls ∧ calls.filter (fun c => c.1 = split 47 f) = [] := by
  obtain ⟨h, hr, _⟩ := tableRun_spec ops hops
  obtain ⟨calls, h1, _, h3⟩ := publishGo_spec h (split 47 topic) [] (noWild_of_topic htopic)
  simp only [List.nil_append] at h3
  refine ⟨calls, h1, ?_⟩
  rw [h3, if_neg]
  intro ht
  exact ((treeMatch_iff _ _ (hashLast_of_filter (subAt_filter_shape hops hf)) (split_ne_nil _ _)
          (noWild_of_topic htopic)).1 ht).2 hp

/-- Rolling back any transaction leaves the table as it was: same listing, same dispatch of every
topic, no user data cleaned up. -/
theorem C12_rollback (ops : List ((List Nat → Nat) × TableOp)) (hops : ∀ op ∈ ops, LegalOp op) (steps : List TxStep) :
    iterate (aborted (tableRun ops) steps) = iterate (tableRun ops) ∧
    (∀ topic, publish (aborted (tableRun ops) steps) topic = publish (tableRun ops) topic) ∧
    (aborted (tableRun ops) steps).cleaned = (tableRun ops).cleaned := by
  obtain ⟨h, _, _⟩ := tableRun_spec ops hops
  obtain ⟨h1, h2⟩ := aborted_spec steps (tableRun ops) h.closed
  refine ⟨?_, ?_, h2⟩
  · unfold iterate; rw [h1]
  · intro topic; unfold publish; rw [h1]

/-! Concrete cases. `a/#` is 97 47 35, `a` is 97, `a/+` is 97 47 43, `a/b` is 97 47 98. -/

def exampleSub (n : Nat) : Sub := { callback := n, cleanup := true, userdata := some n, qos := 1 }

theorem asciiText {bs : Bytes} (h : ∀ b ∈ bs, 0x20 ≤ b.toNat ∧ b.toNat < 0x7F) : Text bs := by
  refine ⟨bs.map (·.toNat), ?_, ?_⟩
  · intro c hc
    obtain ⟨b, hb, rfl⟩ := List.mem_map.1 hc
    have := h b hb
    unfold Scalar Disallowed
    omega
  · induction bs with
    | nil => rfl
    | cons b bs ih =>
      have := h b (by simp)
      rw [List.map_cons, List.flatMap_cons, ← ih (fun b hb => h b (by simp [hb]))]
      unfold utf8
      rw [if_pos (by omega)]
      simp

theorem filter_aHash : TopicFilter [97, 47, 35] :=
  (C08_filter _).1 (by decide +kernel)

theorem filter_ab : TopicFilter [97, 47, 98] := (C08_filter _).1 (by decide +kernel)

theorem filter_aPlus : TopicFilter [97, 47, 43] := (C08_filter _).1 (by decide +kernel)

/-- `a/#` and `a/+` subscribed together, then `a/b`, an aborted insert, and `a/b` unsubscribed. -/
def exampleOps : List ((List Nat → Nat) × TableOp) :=
  [(fun l => l.headD 0, .subscribe [([97, 47, 35], exampleSub 1), ([97, 47, 43], exampleSub 2)]),
   (fun l => l.headD 0, .subscribe [([97, 47, 98], exampleSub 3)]),
   (fun l => l.headD 0, .abort [.insert [97, 47, 98, 47, 99] (exampleSub 4), .remove [97, 47, 35]]),
   (fun l => l.headD 0, .unsubscribe [97, 47, 98])]

theorem exampleOps_legal : ∀ op ∈ exampleOps, LegalOp op := by
  intro op hop
  simp only [exampleOps, List.mem_cons, List.not_mem_nil, or_false] at hop
  rcases hop with rfl | rfl | rfl | rfl
  · intro e he
    simp only [List.mem_cons, List.not_mem_nil, or_false] at he
    rcases he with rfl | rfl
    · exact filter_aHash
    · exact filter_aPlus
  · intro e he
    simp only [List.mem_cons, List.not_mem_nil, or_false] at he
    subst he; exact filter_ab
  · trivial
  · trivial

example : mapRun exampleOps [97, 47, 43] = some (exampleSub 2) ∧ mapRun exampleOps [97, 47, 98] = none ∧
    publish (tableRun exampleOps) [97, 47, 98] =
      some [([[97], [35]], exampleSub 1), ([[97], [43]], exampleSub 2)] ∧
    (tableRun exampleOps).cleaned = [3] := by decide +kernel

/-- The violation happens: `a/#` is subscribed, the topic is `a`, nobody is called. -/
example : mapRun exampleOps [97, 47, 35] = some (exampleSub 1) ∧
    Matches (split 47 [97, 47, 35]) (split 47 [97]) ∧ ParentHash (split 47 [97, 47, 35]) (split 47 [97]) ∧
    publish (tableRun exampleOps) [97] = some [] := by
  refine ⟨by decide +kernel, ?_, ⟨[[97]], by decide, ?_⟩, by decide +kernel⟩
  · rw [show split 47 [97, 47, 35] = [[97], [35]] by decide, show split 47 [97] = [[97]] by decide]
    simp [Matches]
  · rw [show split 47 [97] = [[97]] by decide]
    simp [Matches]

example : TopicName [97] := (C08_topic _).1 (by decide +kernel)

end Mqtt.Props
