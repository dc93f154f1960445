import Verif.Lemmas.AdapterRefs
import Verif.Lemmas.Client5Log
import Verif.Lemmas.SubscriptionSet

/-!
The operations of the adapter: ids, submission tasks, and the operations of the client that belong to them.
-/
namespace Mqtt.Adapter

open Mqtt.V5 Mqtt.SubscriptionSet
open Mqtt.Client5 (Config Client LEvent Effect Fault Desired)

/-- This completes the client's operation `u`. -/
def completes (u : Nat) : Effect → Bool
  | .completed v _ _ _ => v == u
  | _ => false

theorem findUid_some {u : Nat} {l : List (Nat × AOp)} {id : Nat} {op : AOp} (h : findUid u l = some (id, op)) :
    (id, op) ∈ l ∧ op.uid = some u := by
  induction l with
  | nil => cases h
  | cons p l ih =>
    unfold findUid at h
    split at h
    · rename_i hp
      injection h with h
      subst h
      exact ⟨List.mem_cons_self .., hp⟩
    · exact ⟨List.mem_cons_of_mem _ (ih h).1, (ih h).2⟩

theorem findUid_none {u : Nat} {l : List (Nat × AOp)} (h : findUid u l = none) {id : Nat} {op : AOp}
    (hm : (id, op) ∈ l) : op.uid ≠ some u := by
  induction l with
  | nil => cases hm
  | cons p l ih =>
    unfold findUid at h
    split at h
    · cases h
    · rename_i hp
      rcases List.mem_cons.1 hm with rfl | hm
      · exact hp
      · exact ih h hm

/-- No two operations have the same operation of the client. -/
def Distinct (t : AMap Nat AOp) : Prop :=
  ∀ id op id' op' u, t.get id = some op → t.get id' = some op' → op.uid = some u → op'.uid = some u → id = id'

theorem onEvent_table (a : Adapter) (e : LEvent) : (a.onEvent e).table = a.table := by
  have h1 : ∀ (a : Adapter) c, (a.completeConnect c).table = a.table := by
    intro a c; unfold Adapter.completeConnect; split <;> rfl
  unfold Adapter.onEvent
  cases e with
  | attempting => rfl
  | success =>
    dsimp only
    split
    · rfl
    · exact h1 _ _
    · rfl
  | failure e =>
    dsimp only
    split
    · rfl
    · split
      · rfl
      · exact h1 _ _
      · rfl
  | disconnection e => dsimp only; split <;> rfl
  | stopped =>
    show a.completeDisconnect.table = a.table
    unfold Adapter.completeDisconnect; split <;> rfl

theorem overlook_table (a : Adapter) (e : LEvent) : (a.overlook e).table = a.table := by
  unfold Adapter.overlook
  split <;> rfl

/-- What one effect does to the table. -/
theorem onEffect_table (a : Adapter) (e : Effect) (hn : a.table.Nodup) (hd : Distinct a.table) :
    (a.onEffect e).table.Nodup ∧ ∀ id op, (a.onEffect e).table.get id = some op ↔
      a.table.get id = some op ∧ ∀ u, op.uid = some u → completes u e = false := by
  have same : ∀ a' : Adapter, a'.table = a.table → (∀ u, completes u e = false) → a'.table.Nodup ∧
      ∀ id op, a'.table.get id = some op ↔ a.table.get id = some op ∧ ∀ u, op.uid = some u → completes u e = false := by
    intro a' h hc
    rw [h]
    exact ⟨hn, fun id op => ⟨fun h => ⟨h, fun u _ => hc u⟩, fun h => h.1⟩⟩
  cases e with
  | completed v p e ack =>
    show (a.onCompleted v e ack).table.Nodup ∧ _
    unfold Adapter.onEffect Adapter.onCompleted
    dsimp only
    cases hf : findUid v a.table with
    | none =>
      refine ⟨hn, fun id op => ⟨fun h => ⟨h, fun u hu => ?_⟩, fun h => h.1⟩⟩
      have := findUid_none hf (AMap.get_some_mem h)
      rw [hu] at this
      simp only [completes, beq_eq_false_iff_ne, ne_eq]
      exact fun h => this (by rw [h])
    | some x =>
      obtain ⟨id', op'⟩ := x
      obtain ⟨h1, h2⟩ := findUid_some hf
      have h1 := (AMap.mem_iff_get hn).1 h1
      refine ⟨AMap.nodup_del hn id', fun id op => ?_⟩
      show (a.table.del id').get id = some op ↔ _
      rw [AMap.get_del]
      by_cases hid : id = id'
      · subst hid
        rw [if_pos rfl]
        refine ⟨fun h => (by cases h), fun h => ?_⟩
        rw [h1] at h
        have h3 := h.2 v (by rw [← Option.some.inj h.1]; exact h2)
        simp [completes] at h3
      · rw [if_neg hid]
        refine ⟨fun h => ⟨h, fun u hu => ?_⟩, fun h => h.1⟩
        simp only [completes, beq_eq_false_iff_ne, ne_eq]
        intro huv
        subst huv
        exact hid (hd _ _ _ _ _ h h1 hu h2)
  | delivered v ctl =>
    refine same _ ?_ fun _ => rfl
    unfold Adapter.onEffect
    dsimp only
    split <;> rfl
  | _ => exact same _ rfl fun _ => rfl

theorem Distinct.sub {t t' : AMap Nat AOp} (h : Distinct t) (hs : ∀ id op, t'.get id = some op → t.get id = some op) :
    Distinct t' := fun id op id' op' u h1 h2 => h id op id' op' u (hs _ _ h1) (hs _ _ h2)

theorem fold_table (new : List Effect) (a : Adapter) (hn : a.table.Nodup) (hd : Distinct a.table) :
    (new.foldl Adapter.onEffect a).table.Nodup ∧ ∀ id op, (new.foldl Adapter.onEffect a).table.get id = some op ↔
      a.table.get id = some op ∧ ∀ u, op.uid = some u → ∀ e ∈ new, completes u e = false := by
  induction new generalizing a with
  | nil => exact ⟨hn, fun id op => ⟨fun h => ⟨h, fun _ _ _ h => by cases h⟩, fun h => h.1⟩⟩
  | cons e new ih =>
    obtain ⟨h1, h2⟩ := onEffect_table a e hn hd
    obtain ⟨h3, h4⟩ := ih _ h1 (hd.sub fun id op h => ((h2 id op).1 h).1)
    refine ⟨h3, fun id op => ?_⟩
    rw [List.foldl_cons, h4, h2]
    constructor
    · rintro ⟨⟨h5, h6⟩, h7⟩
      refine ⟨h5, fun u hu x hx => ?_⟩
      rcases List.mem_cons.1 hx with rfl | hx
      · exact h6 u hu
      · exact h7 u hu x hx
    · rintro ⟨h5, h6⟩
      exact ⟨⟨h5, fun u hu => h6 u hu e (List.mem_cons_self ..)⟩, fun u hu x hx => h6 u hu x (List.mem_cons_of_mem _ hx)⟩

/-- The callbacks of the client take those operations from the table whose operation it has completed. -/
theorem react_table (s : Sys) (c : Client) (new : List Effect) (hl : c.ops.log = s.client.ops.log ++ new)
    (hn : s.ad.table.Nodup) (hd : Distinct s.ad.table) :
    (s.react c).ad.table.Nodup ∧ ∀ id op, (s.react c).ad.table.get id = some op ↔
      s.ad.table.get id = some op ∧ ∀ u, op.uid = some u → ∀ e ∈ new, completes u e = false := by
  have key : ∀ (f : Adapter → LEvent → Adapter) (l : List LEvent) (a : Adapter), (∀ a x, (f a x).table = a.table) →
      (l.foldl f a).table = a.table := by
    intro f l
    induction l with
    | nil => intro a _; rfl
    | cons x l ih => intro a hf; exact (ih _ hf).trans (hf _ _)
  have ht : ((c.ctl.events.drop s.client.ctl.events.length).foldl
      (if s.ad.attached then Adapter.onEvent else Adapter.overlook) s.ad).table = s.ad.table := by
    apply key
    split
    · exact onEvent_table
    · exact overlook_table
  unfold Sys.react
  rw [hl, List.drop_left]
  dsimp only
  rw [← ht] at hn hd
  have h := fold_table new _ hn hd
  rw [ht] at h
  exact h

/-- The set of subscriptions is sound and has valid filters only. -/
structure SetOk (set : SubSet) : Prop where
  inv : SubscriptionSet.Inv set.nodes (byLevels set.subscriptions)
  valid : ∀ f e, (f, e) ∈ set.subscriptions → isValidTopicFilter f = true

theorem SetOk.add {set : SubSet} (h : SetOk set) {f : Bytes} (e : Entry) (hf : isValidTopicFilter f = true) :
    ∃ set', SubscriptionSet.add set f e = some set' ∧ SetOk set' := by
  obtain ⟨set', h1, h2, h3, _⟩ := add_spec h.inv f e hf
  refine ⟨set', h1, h3, fun g e' hg => ?_⟩
  rw [h2] at hg
  rcases List.mem_cons.1 hg with hx | hx
  · injection hx with hx _; rw [hx]; exact hf
  · exact h.valid g e' (List.mem_filter.1 hx).1

theorem SetOk.remove {set : SubSet} (h : SetOk set) (f : Bytes) :
    ∃ set', SubscriptionSet.remove set f = some set' ∧ SetOk set' := by
  obtain ⟨set', h1, h2, h3, _⟩ := remove_spec h.inv f
  refine ⟨set', h1, h3, fun g e' hg => ?_⟩
  rw [h2] at hg
  exact h.valid g e' (List.mem_filter.1 hg).1

theorem SetOk.addAll {set : SubSet} (h : SetOk set) {rs : List Request} (hr : ∀ r ∈ rs, isValidTopicFilter r.filter = true) :
    ∃ set', addAll set rs = some set' ∧ SetOk set' := by
  induction rs generalizing set with
  | nil => exact ⟨set, rfl, h⟩
  | cons r rs ih =>
    obtain ⟨s1, h1, h2⟩ := h.add r.entry (hr r (List.mem_cons_self ..))
    obtain ⟨s2, h3, h4⟩ := ih h2 fun r h => hr r (List.mem_cons_of_mem _ h)
    exact ⟨s2, by unfold Adapter.addAll; rw [h1]; exact h3, h4⟩

theorem addAll_ok {set set' : SubSet} {rs : List Request} (h : SetOk set) (ha : addAll set rs = some set') : SetOk set' := by
  induction rs generalizing set with
  | nil => cases ha; exact h
  | cons r rs ih =>
    unfold Adapter.addAll at ha
    split at ha
    · cases ha
    · rename_i s1 hs
      by_cases hf : isValidTopicFilter r.filter = true
      · obtain ⟨s2, h1, h2⟩ := h.add r.entry hf
        rw [hs] at h1
        cases h1
        exact ih h2 ha
      · unfold SubscriptionSet.add at hs
        rw [if_pos hf] at hs
        cases hs

theorem SetOk.new : SetOk SubSet.new := ⟨inv_new, fun _ _ h => by cases h⟩

/-- The table of operations. -/
structure TableInv (s : Sys) : Prop where
  nodup : s.ad.table.Nodup
  ok : ∀ id op, s.ad.table.get id = some op → KindOk op.kind
  ids : ∀ id op, s.ad.table.get id = some op → 1 ≤ id ∧ id ≤ 65535
  next : 1 ≤ s.ad.nextId ∧ s.ad.nextId ≤ 65535
  queued : ∀ id, .submit id ∈ s.ad.tasks ↔ ∃ op, s.ad.table.get id = some op ∧ op.uid = none
  once : ∀ id, s.ad.tasks.count (.submit id) ≤ 1
  uids : ∀ id op u, s.ad.table.get id = some op → op.uid = some u → u < s.client.ops.nextUid
  distinct : Distinct s.ad.table
  running : ∀ id op u, s.ad.table.get id = some op → op.uid = some u → ∀ e ∈ s.client.ops.log, completes u e = false
  subs : s.ad.gone = false → SetOk s.ad.subs

/-- The table after the client has moved. -/
theorem TableInv.react {s : Sys} (h : TableInv s) {c : Client} {new : List Effect}
    (hl : c.ops.log = s.client.ops.log ++ new) (hu : s.client.ops.nextUid ≤ c.ops.nextUid) : TableInv (s.react c) := by
  obtain ⟨h1, h2⟩ := react_table s c new hl h.nodup h.distinct
  have hs := react_same s c
  have sub : ∀ id op, (s.react c).ad.table.get id = some op → s.ad.table.get id = some op := fun id op hx => ((h2 id op).1 hx).1
  refine ⟨h1, fun id op hx => h.ok id op (sub _ _ hx), fun id op hx => h.ids id op (sub _ _ hx), ?_, ?_, ?_, ?_,
    h.distinct.sub sub, ?_, ?_⟩
  · rw [hs.nextId]; exact h.next
  · intro id
    rw [hs.tasks, h.queued]
    constructor
    · rintro ⟨op, h3, h4⟩
      exact ⟨op, (h2 id op).2 ⟨h3, fun u hu => by rw [h4] at hu; cases hu⟩, h4⟩
    · rintro ⟨op, h3, h4⟩
      exact ⟨op, sub _ _ h3, h4⟩
  · rw [hs.tasks]; exact h.once
  · intro id op u hx hop
    exact Nat.lt_of_lt_of_le (h.uids id op u (sub _ _ hx) hop) hu
  · intro id op u hx hop e he
    rw [react_client, hl] at he
    rcases List.mem_append.1 he with he | he
    · exact h.running id op u (sub _ _ hx) hop e he
    · exact ((h2 id op).1 hx).2 u hop e he
  · rw [hs.gone, hs.subs]; exact h.subs

theorem nextAdapterId_range {id : Nat} (h : 1 ≤ id ∧ id ≤ 65535) : 1 ≤ nextAdapterId id ∧ nextAdapterId id ≤ 65535 := by
  unfold nextAdapterId
  split <;> omega

theorem findFree_some {t : AMap Nat AOp} {n i r : Nat} (h : findFree t n i = some r) (hid : 1 ≤ i ∧ i ≤ 65535) :
    t.get r = none ∧ 1 ≤ r ∧ r ≤ 65535 := by
  induction n generalizing i with
  | zero => cases h
  | succ n ih =>
    unfold findFree at h
    split at h
    · exact ih h (nextAdapterId_range hid)
    · rename_i hg
      cases h
      refine ⟨?_, hid⟩
      cases hx : t.get r with
      | none => rfl
      | some x => rw [hx] at hg; exact absurd rfl hg

/-- Moves of the client that leave the log and the numbers of operations. -/
theorem TableInv.client {s : Sys} (h : TableInv s) {cfg : Config} {c : Client} (h1 : c.ops.log = s.client.ops.log)
    (h2 : c.ops.nextUid = s.client.ops.nextUid) : TableInv { s with cfg := cfg, client := c } :=
  ⟨h.nodup, h.ok, h.ids, h.next, h.queued, h.once, fun id op u hx hu => by rw [h2]; exact h.uids id op u hx hu, h.distinct,
    fun id op u hx hu => by rw [h1]; exact h.running id op u hx hu, h.subs⟩

/-- Changes of the adapter that leave the table. -/
theorem TableInv.adapter {s : Sys} (h : TableInv s) {a : Adapter} (h1 : a.table = s.ad.table) (h2 : a.nextId = s.ad.nextId)
    (h3 : ∃ new, a.tasks = s.ad.tasks ++ new ∧ ∀ id, .submit id ∉ new) (h4 : a.gone = false → SetOk a.subs) :
    TableInv { s with ad := a } := by
  obtain ⟨new, h3, h5⟩ := h3
  refine ⟨by rw [h1]; exact h.nodup, by rw [h1]; exact h.ok, by rw [h1]; exact h.ids, by rw [h2]; exact h.next, ?_, ?_,
    by rw [h1]; exact h.uids, by rw [h1]; exact h.distinct, by rw [h1]; exact h.running, h4⟩
  · intro id
    dsimp only
    rw [h3, h1, List.mem_append, ← h.queued]
    exact ⟨fun hx => hx.elim (fun h => h) fun hx => absurd hx (h5 id), .inl⟩
  · intro id
    dsimp only
    rw [h3, List.count_append, List.count_eq_zero_of_not_mem (h5 id)]
    exact h.once id

theorem final_submit {new : List Task} (h : ∀ t ∈ new, t.final = true) (id : Nat) : .submit id ∉ new := fun hx => by
  have := h _ hx
  cases this

theorem TableInv.releaseInternal {s : Sys} (h : TableInv s) : TableInv { s with ad := s.ad.releaseInternal } := by
  have hc := releaseInternal_counts s.ad
  obtain ⟨new, h1, h2⟩ := releaseInternal_tasks s.ad
  refine h.adapter hc.table hc.nextId ⟨new, h1, final_submit h2⟩ fun hg => ?_
  rw [hc.subs]; exact h.subs (hc.gone ▸ hg)

theorem TableInv.releaseListener {s : Sys} (h : TableInv s) : TableInv { s with ad := s.ad.releaseListener } := by
  have hc := releaseListener_counts s.ad
  obtain ⟨new, h1, h2⟩ := releaseListener_tasks s.ad
  refine h.adapter hc.table hc.nextId ⟨new, h1, final_submit h2⟩ fun hg => ?_
  rw [hc.subs]; exact h.subs (hc.gone ▸ hg)

/-- A task that is not a submission has been taken from the queue. -/
theorem TableInv.pop {s : Sys} (h : TableInv s) {t : Task} {ts : List Task} (ht : s.ad.tasks = t :: ts)
    (hn : ∀ id, t ≠ .submit id) : TableInv { s with ad := { s.ad with tasks := ts } } := by
  refine ⟨h.nodup, h.ok, h.ids, h.next, fun id => ?_, fun id => ?_, h.uids, h.distinct, h.running, h.subs⟩
  · rw [← h.queued, ht, List.mem_cons]
    exact ⟨.inr, fun hx => hx.resolve_left fun he => hn id he.symm⟩
  · have := h.once id
    rw [ht, List.count_cons] at this
    exact Nat.le_trans (Nat.le_add_right ..) this

/-- The operation leaves the table with its submission task. -/
theorem TableInv.ended {s : Sys} (h : TableInv s) {id : Nat} {ts : List Task} (ht : s.ad.tasks = .submit id :: ts) {a : Adapter}
    (h1 : a.table = s.ad.table.del id) (h2 : a.nextId = s.ad.nextId) (h3 : a.tasks = ts) (h4 : a.gone = false → SetOk a.subs) :
    TableInv { s with ad := a } := by
  have sub : ∀ i op, a.table.get i = some op → i ≠ id ∧ s.ad.table.get i = some op := by
    intro i op hx
    rw [h1, AMap.get_del] at hx
    split at hx
    · cases hx
    · rename_i hi; exact ⟨hi, hx⟩
  refine ⟨by rw [h1]; exact AMap.nodup_del h.nodup id, fun i op hx => h.ok i op (sub _ _ hx).2,
    fun i op hx => h.ids i op (sub _ _ hx).2, by rw [h2]; exact h.next, fun i => ?_, fun i => ?_,
    fun i op u hx => h.uids i op u (sub _ _ hx).2, h.distinct.sub fun i op hx => (sub i op hx).2,
    fun i op u hx => h.running i op u (sub _ _ hx).2, h4⟩
  · dsimp only
    rw [h3]
    have hone := h.once i
    rw [ht, List.count_cons] at hone
    have hq := h.queued i
    rw [ht, List.mem_cons] at hq
    constructor
    · intro hm
      have hi : i ≠ id := by
        intro he
        subst he
        have := List.count_pos_iff.2 hm
        simp at hone
        omega
      obtain ⟨op, h5, h6⟩ := hq.1 (.inr hm)
      exact ⟨op, by rw [h1, AMap.get_del, if_neg hi]; exact h5, h6⟩
    · rintro ⟨op, h5, h6⟩
      obtain ⟨h7, h8⟩ := sub _ _ h5
      rcases hq.2 ⟨op, h8, h6⟩ with he | hm
      · injection he with he; exact absurd he h7
      · exact hm
  · dsimp only
    rw [h3]
    have hone := h.once i
    rw [ht, List.count_cons] at hone
    omega

/-- What a submission does to the log of the client. -/
theorem submit_log (cfg : Config) (c : Client) (p : Outgoing) :
    (c.submit cfg p 0 false).ops.nextUid = c.ops.nextUid + 1 ∧
      ∃ new, (c.submit cfg p 0 false).ops.log = c.ops.log ++ new := by
  unfold Client5.Client.submit
  rw [if_neg (by decide)]
  split
  · exact ⟨rfl, _, rfl⟩
  · exact ⟨rfl, _, rfl⟩

/-- The client has not completed what it has not numbered. -/
def Future (c : Client) : Prop := ∀ u, c.ops.nextUid ≤ u → ∀ e ∈ c.ops.log, completes u e = false

theorem held_future {c : Client} (h : Client5.HeldInv c) : Future c := by
  intro u hu e he
  have h1 := h.once u
  unfold Client5.places Client5.born at h1
  rw [if_neg (by omega)] at h1
  have h2 : (c.ops.log.filterMap Client5.Effect.gone).count u = 0 := by omega
  cases hx : completes u e with
  | false => rfl
  | true =>
    exfalso
    have : u ∈ c.ops.log.filterMap Client5.Effect.gone := by
      refine List.mem_filterMap.2 ⟨e, he, ?_⟩
      cases e <;> simp [completes] at hx
      simp [Client5.Effect.gone, hx]
    exact absurd (List.count_pos_iff.2 this) (by omega)

/-- The operation is submitted. -/
theorem TableInv.sent {s : Sys} (h : TableInv s) (hf : Future s.client) {id : Nat} {ts : List Task}
    (ht : s.ad.tasks = .submit id :: ts) {op op' : AOp} {set : SubSet} {p : Outgoing} (hop : s.ad.table.get id = some op)
    (hk : KindOk op'.kind) (hset : s.ad.gone = false → SetOk set) :
    TableInv (({ s with ad := { { s.ad with tasks := ts } with subs := set } } : Sys).submitOp id op' p) := by
  obtain ⟨hu, new, hl⟩ := submit_log s.cfg s.client p
  unfold Sys.submitOp
  dsimp only
  -- the table with the number that the client will give out
  have h0 : TableInv (Sys.mk s.cfg { s.client with ops := { s.client.ops with nextUid := s.client.ops.nextUid + 1 } }
      { s.ad with tasks := ts, subs := set, table := s.ad.table.set id { op' with uid := some s.client.ops.nextUid } }) := by
    have get : ∀ i o, (s.ad.table.set id { op' with uid := some s.client.ops.nextUid }).get i = some o →
        i = id ∧ o = { op' with uid := some s.client.ops.nextUid } ∨ i ≠ id ∧ s.ad.table.get i = some o := by
      intro i o hx
      rw [AMap.get_set] at hx
      split at hx
      · rename_i hi; exact .inl ⟨hi, (Option.some.inj hx).symm⟩
      · rename_i hi; exact .inr ⟨hi, hx⟩
    refine ⟨AMap.nodup_set h.nodup .., ?_, ?_, h.next, ?_, ?_, ?_, ?_, ?_, hset⟩
    · intro i o hx
      rcases get i o hx with ⟨_, rfl⟩ | ⟨_, hx⟩
      · exact hk
      · exact h.ok i o hx
    · intro i o hx
      rcases get i o hx with ⟨rfl, _⟩ | ⟨_, hx⟩
      · exact h.ids _ _ hop
      · exact h.ids i o hx
    · intro i
      dsimp only
      have hone := h.once i
      rw [ht, List.count_cons] at hone
      have hq := h.queued i
      rw [ht, List.mem_cons] at hq
      constructor
      · intro hm
        have hi : i ≠ id := by
          intro he
          subst he
          have := List.count_pos_iff.2 hm
          simp at hone
          omega
        obtain ⟨o, h5, h6⟩ := hq.1 (.inr hm)
        exact ⟨o, by rw [AMap.get_set, if_neg hi]; exact h5, h6⟩
      · rintro ⟨o, h5, h6⟩
        rcases get i o h5 with ⟨_, rfl⟩ | ⟨hi, h8⟩
        · cases h6
        · rcases hq.2 ⟨o, h8, h6⟩ with he | hm
          · injection he with he; exact absurd he hi
          · exact hm
    · intro i
      have hone := h.once i
      rw [ht, List.count_cons] at hone
      dsimp only
      omega
    · intro i o u hx hou
      dsimp only
      rcases get i o hx with ⟨_, rfl⟩ | ⟨_, hx⟩
      · injection hou with hou; omega
      · exact Nat.lt_succ_of_lt (h.uids i o u hx hou)
    · intro i o i' o' u hx hx' ho ho'
      rcases get i o hx with ⟨h1, rfl⟩ | ⟨_, hx⟩ <;> rcases get i' o' hx' with ⟨h1', rfl⟩ | ⟨_, hx'⟩
      · rw [h1, h1']
      · injection ho with ho
        have := h.uids i' o' u hx' ho'
        omega
      · injection ho' with ho'
        have := h.uids i o u hx ho
        omega
      · exact h.distinct i o i' o' u hx hx' ho ho'
    · intro i o u hx ho
      rcases get i o hx with ⟨_, rfl⟩ | ⟨_, hx⟩
      · injection ho with ho
        exact hf u (by omega)
      · exact h.running i o u hx ho
  have h1 := h0.react (c := s.client.submit s.cfg p 0 false) (new := new) hl (Nat.le_of_eq hu.symm)
  have : ∀ (c1 c2 c : Client) cfg (a : Adapter), c1.ctl.events = c2.ctl.events → c1.ops.log = c2.ops.log →
      (Sys.mk cfg c1 a).react c = (Sys.mk cfg c2 a).react c := by
    intro c1 c2 c cfg a h1 h2
    unfold Sys.react
    rw [h1, h2]
  exact this s.client { s.client with ops := { s.client.ops with nextUid := s.client.ops.nextUid + 1 } } _ _ _ rfl rfl ▸ h1

theorem TableInv.connectTask {s : Sys} (h : TableInv s) (hg : s.ad.gone = false) (j : Nat) (o : ConnectOptions) :
    TableInv (s.connectTask j o) := by
  by_cases hs : s.ad.state = .stayDisconnected
  · rw [connectTask_start hs]
    have hcl : (connectClient s.client o).ops = s.client.ops := by
      unfold connectClient
      rw [Client5.setDesired_none]
      exact (Client5.resetConnection_soft (updateSettings s.client o)).2.2
    have h2 := h.client (cfg := updateConfig s.cfg o) (c := connectClient s.client o) (by rw [hcl]) (by rw [hcl])
    have hk := completeDisconnect_same s.ad
    have htab : s.ad.completeDisconnect.table = s.ad.table := by
      unfold Adapter.completeDisconnect; split <;> rfl
    refine h2.adapter htab hk.nextId ⟨[], by simpa using hk.tasks, by simp⟩ fun _ => ?_
    show SetOk (Adapter.completeDisconnect _).subs
    rw [hk.subs]
    exact h.subs hg
  · rw [connectTask_refuse hs]
    exact h.adapter rfl rfl ⟨[], by simp, by simp⟩ h.subs

theorem TableInv.disconnectTask {s : Sys} (h : TableInv s) (hg : s.ad.gone = false) (j : Nat) :
    TableInv (s.disconnectTask j) := by
  by_cases hs : s.ad.state = .stayDisconnected
  · rw [disconnectTask_idle hs]
    exact h.adapter rfl rfl ⟨[], by simp, by simp⟩ h.subs
  · have hk := halt_same s.ad
    have htab : s.ad.halt.table = s.ad.table := by
      unfold Adapter.halt
      split
      · show (Adapter.completeConnect _ _).table = _
        unfold Adapter.completeConnect; split <;> rfl
      · rfl
    by_cases hd : s.client.ctl.desired = .stopped
    · rw [disconnectTask_stopped hs hd]
      exact h.adapter htab hk.nextId ⟨[], by simpa using hk.tasks, by simp⟩ fun _ => by
        show SetOk (Adapter.halt _).subs
        rw [hk.subs]
        exact h.subs hg
    · rw [disconnectTask_stop hs hd]
      have h2 := h.client (cfg := s.cfg) (c := s.client.setDesired .stopped none) (by rw [Client5.setDesired_none])
        (by rw [Client5.setDesired_none])
      refine h2.adapter htab hk.nextId ⟨[], by simpa using hk.tasks, by simp⟩ fun _ => ?_
      show SetOk (Adapter.halt _).subs
      rw [hk.subs]
      exact h.subs hg

theorem TableInv.ran {s s' : Sys} {t : Task} {ts : List Task} (h : TableInv s) (hf : Future s.client) (ht : s.ad.tasks = t :: ts)
    (hg : s.ad.gone = false) (hr : Refs s.ad) (hran : Ran { s with ad := { s.ad with tasks := ts } } t s') : TableInv s' := by
  cases hran with
  | attach =>
    have h1 := h.pop ht (by simp)
    exact TableInv.releaseListener (s := { s with ad := { { s.ad with tasks := ts } with attached := true } })
      (h1.adapter rfl rfl ⟨[], by simp, by simp⟩ h1.subs)
  | detach =>
    have h1 := h.pop ht (by simp)
    exact TableInv.releaseInternal (s := { s with ad := { { s.ad with tasks := ts } with attached := false } })
      (h1.adapter rfl rfl ⟨[], by simp, by simp⟩ h1.subs)
  | connect j o => exact ((h.pop ht (by simp)).connectTask hg j o).releaseInternal
  | disconnect j => exact ((h.pop ht (by simp)).disconnectTask hg j).releaseInternal
  | submit id s1 hsub =>
    refine TableInv.releaseInternal (s := s1) ?_
    cases hsub with
    | ended op r hop => exact h.ended ht rfl rfl rfl h.subs
    | sent op op' set p hop _ hok hset =>
      refine h.sent hf ht hop (hok (h.ok _ _ hop) (h.subs hg).valid).2.2 fun hg => ?_
      have hso := h.subs hg
      rcases hset with hset | ⟨rs, hset⟩ | ⟨f, hset⟩
      · rw [hset]; exact hso
      · exact addAll_ok hso hset
      · obtain ⟨s2, h1, h2⟩ := hso.remove f
        have hset : SubscriptionSet.remove s.ad.subs f = some set := hset
        rw [h1] at hset
        cases hset
        exact h2
  | destroy =>
    have htasks : ts = [] := by
      cases hr with
      | fresh ts' e1 => rw [ht] at e1; cases e1
      | live e1 => have := e1 _ (by rw [ht]; exact List.mem_cons_self ..); cases this
      | dying ts' e1 e2 =>
        cases ts' with
        | nil => rw [ht] at e1; cases e1
        | cons x l =>
          rw [ht] at e1
          injection e1 with e1 _
          have := e2 x (List.mem_cons_self ..)
          rw [← e1] at this
          cases this
      | dead e1 => rw [ht] at e1; injection e1
      | gone e1 => rw [ht] at e1; cases e1
    subst htasks
    refine ⟨AMap.nodup_nil, fun _ _ h => (by cases h), fun _ _ h => (by cases h), h.next, fun id => ?_, fun id => ?_,
      fun _ _ _ h => (by cases h), fun _ _ _ _ _ h => (by cases h), fun _ _ _ h => (by cases h), fun h => by cases h⟩
    · exact ⟨fun h => (by cases h), fun ⟨_, h, _⟩ => by cases h⟩
    · exact Nat.zero_le _

theorem TableInv.did {s s' : Sys} {e : Event} (hl : TableInv s) (hh : Client5.HeldInv s.client) (hr : Refs s.ad)
    (he : Enabled s e) (h : Did s e s') : TableInv s' := by
  cases h with
  | refused => exact hl
  | connect o _ _ => exact hl.adapter rfl rfl ⟨[.connect s.ad.calls o], rfl, by simp⟩ hl.subs
  | disconnect => exact hl.adapter rfl rfl ⟨[.disconnect s.ad.calls], rfl, by simp⟩ hl.subs
  | add _ k hk _ =>
    unfold Adapter.add
    split
    · exact hl.adapter rfl rfl ⟨[], by simp, by simp⟩ hl.subs
    · rename_i id hfree
      obtain ⟨h1, h2⟩ := findFree_some hfree hl.next
      have get : ∀ i o, (s.ad.table.set id { call := s.ad.calls, kind := k }).get i = some o →
          i = id ∧ o = { call := s.ad.calls, kind := k } ∨ i ≠ id ∧ s.ad.table.get i = some o := by
        intro i o hx
        rw [AMap.get_set] at hx
        split at hx
        · rename_i hi; exact .inl ⟨hi, (Option.some.inj hx).symm⟩
        · rename_i hi; exact .inr ⟨hi, hx⟩
      refine ⟨AMap.nodup_set hl.nodup .., ?_, ?_, nextAdapterId_range h2, ?_, ?_, ?_, ?_, ?_, hl.subs⟩
      · intro i o hx
        rcases get i o hx with ⟨_, rfl⟩ | ⟨_, hx⟩
        · exact hk
        · exact hl.ok i o hx
      · intro i o hx
        rcases get i o hx with ⟨rfl, _⟩ | ⟨_, hx⟩
        · exact h2
        · exact hl.ids i o hx
      · intro i
        show _ ∈ s.ad.tasks ++ [Task.submit id] ↔ ∃ op, (s.ad.table.set id { call := s.ad.calls, kind := k }).get i = some op ∧ _
        rw [List.mem_append, hl.queued, List.mem_singleton]
        constructor
        · rintro (⟨op, h3, h4⟩ | h3)
          · have hi : i ≠ id := by rintro rfl; rw [h1] at h3; cases h3
            exact ⟨op, by rw [AMap.get_set, if_neg hi]; exact h3, h4⟩
          · injection h3 with h3
            subst h3
            exact ⟨_, AMap.get_set_same .., rfl⟩
        · rintro ⟨op, h3, h4⟩
          rcases get i op h3 with ⟨rfl, _⟩ | ⟨_, hx⟩
          · exact .inr rfl
          · exact .inl ⟨op, hx, h4⟩
      · intro i
        show (s.ad.tasks ++ [Task.submit id]).count (.submit i) ≤ 1
        rw [List.count_append, List.count_singleton]
        have hone := hl.once i
        by_cases hi : i = id
        · subst hi
          have : s.ad.tasks.count (.submit i) = 0 := by
            apply List.count_eq_zero_of_not_mem
            intro hm
            obtain ⟨op, h3, _⟩ := (hl.queued i).1 hm
            rw [h1] at h3
            cases h3
          simp [this]
        · have : (Task.submit id == Task.submit i) = false := by simp; omega
          simp [this]
          exact hone
      · intro i o u hx hu
        rcases get i o hx with ⟨_, rfl⟩ | ⟨_, hx⟩
        · cases hu
        · exact hl.uids i o u hx hu
      · intro i o i' o' u hx hx' ho ho'
        rcases get i o hx with ⟨_, rfl⟩ | ⟨_, hx⟩ <;> rcases get i' o' hx' with ⟨_, rfl⟩ | ⟨_, hx'⟩
        · cases ho
        · cases ho
        · cases ho'
        · exact hl.distinct i o i' o' u hx hx' ho ho'
      · intro i o u hx ho
        rcases get i o hx with ⟨_, rfl⟩ | ⟨_, hx⟩
        · cases ho
        · exact hl.running i o u hx ho
  | acquire => exact hl.adapter rfl rfl ⟨[], by unfold Adapter.acquire; simp, by simp⟩ hl.subs
  | release =>
    have hc := release_counts s.ad
    obtain ⟨new, h1, h2⟩ := release_tasks s.ad
    refine hl.adapter hc.table hc.nextId ⟨new, h1, final_submit h2⟩ fun hg => ?_
    rw [hc.subs]; exact hl.subs (hc.gone ▸ hg)
  | run t ts _ ht hrun =>
    obtain ⟨hg, hran⟩ := runTask_ran hrun
    exact hl.ran (held_future hh) ht hg hr hran
  | client e c hstep _ =>
    have key : ∀ {c c' : Client}, Client5.Moves s.cfg c c' →
        (∃ new, c'.ops.log = c.ops.log ++ new) ∧ c.ops.nextUid ≤ c'.ops.nextUid := by
      intro c c' m
      induction m with
      | nil => exact ⟨⟨[], by simp⟩, Nat.le_refl _⟩
      | cons m _ ih =>
        obtain ⟨n1, h1, h2, _⟩ := Client5.move_log m
        obtain ⟨⟨n2, h3⟩, h4⟩ := ih
        exact ⟨⟨n1 ++ n2, by rw [h3, h1, List.append_assoc]⟩, Nat.le_trans h2 h4⟩
    obtain ⟨⟨new, h1⟩, h2⟩ := key (Client5.step_moves he.1 hstep)
    exact hl.react h1 h2

end Mqtt.Adapter
