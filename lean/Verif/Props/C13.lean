import Verif.Lemmas.SubscriptionSet
import Verif.Props.C08

/-! C13: the subscription set of a 3.1.1 connection over an MQTT5 client. -/
namespace Mqtt.Props
open Mqtt Mqtt.Spec Mqtt.SubscriptionSet

/-- What the adapter does to the set. -/
inductive SetOp where
  | add (f : Bytes) (e : Entry)
  | remove (f : Bytes)

/-- One operation; `none` is an abort. -/
def setStep (s : SubSet) : SetOp → Option SubSet
  | .add f e => add s f e
  | .remove f => remove s f

/-- The set after a history. -/
def setRun (ops : List SetOp) : Option SubSet := ops.foldlM setStep SubSet.new

/-- Added filters are legal (the adapter checks, mqtt5_to_mqtt3_adapter.c). -/
def SetOp.Legal : SetOp → Prop
  | .add f _ => TopicFilter f
  | .remove _ => True

/-- Specification: a map from filters to entries. -/
def setMapStep (m : Bytes → Option Entry) : SetOp → Bytes → Option Entry
  | .add f e => fun g => if g = f then some e else m g
  | .remove f => fun g => if g = f then none else m g

def setMapRun (ops : List SetOp) : Bytes → Option Entry := ops.foldl setMapStep fun _ => none

/-- Specification: the cleanup calls due for one entry. -/
def setDisposal (e : Entry) : List Nat := if e.cleanup then e.userdata.toList else []

def setInserted : SetOp → List Nat
  | .add _ e => setDisposal e
  | .remove _ => []

/-- Specification: what a publish on a topic that matches the filter calls. -/
def handlerCall (e : Entry) : List (Nat × Option Nat) := e.onPublish.toList.map fun cb => (cb, e.userdata)

theorem count_disposal (e : Entry) (u : Nat) : e.disposal.count (some u) = (setDisposal e).count u := by
  obtain ⟨o, p, c, ud⟩ := e
  cases c <;> cases ud <;> simp [Entry.disposal, setDisposal, List.count_singleton]

theorem setRun_spec (ops : List SetOp) (hops : ∀ op ∈ ops, op.Legal) :
    ∃ s, setRun ops = some s ∧ s.subscriptions.Nodup ∧ Inv s.nodes (byLevels s.subscriptions) ∧
      (∀ f, s.subscriptions.get f = setMapRun ops f) ∧
      ∀ u, s.cleaned.count (some u) + (held s.nodes).count (some u) = (ops.flatMap setInserted).count u := by
  have key : ∀ (ops : List SetOp) (s0 : SubSet) (m : Bytes → Option Entry), (∀ op ∈ ops, op.Legal) →
      s0.subscriptions.Nodup → Inv s0.nodes (byLevels s0.subscriptions) → (∀ f, s0.subscriptions.get f = m f) →
      ∃ s, ops.foldlM setStep s0 = some s ∧ s.subscriptions.Nodup ∧ Inv s.nodes (byLevels s.subscriptions) ∧
        (∀ f, s.subscriptions.get f = ops.foldl setMapStep m f) ∧
        ∀ u, s.cleaned.count (some u) + (held s.nodes).count (some u) =
          s0.cleaned.count (some u) + (held s0.nodes).count (some u) + (ops.flatMap setInserted).count u := by
    intro ops
    induction ops with
    | nil => intro s0 m _ h1 h2 h3; exact ⟨s0, rfl, h1, h2, h3, fun u => by simp⟩
    | cons op ops ih =>
      intro s0 m hl h1 h2 h3
      have hop := hl op (by simp)
      have hrest : ∀ o ∈ ops, o.Legal := fun o ho => hl o (by simp [ho])
      cases op with
      | add f e =>
        obtain ⟨s', a1, a2, a3, a4⟩ := add_spec h2 f e ((C08_filter f).2 hop)
        obtain ⟨s, b1, b2, b3, b4, b5⟩ := ih s' (setMapStep m (.add f e)) hrest
          (by rw [a2]; exact AMap.nodup_set h1 _ _) a3
          (by intro g; rw [a2, AMap.get_set]; simp only [setMapStep]; rw [h3])
        refine ⟨s, ?_, b2, b3, b4, ?_⟩
        · rw [List.foldlM_cons]; simp only [setStep]; rw [a1]; exact b1
        · intro u
          rw [b5, a4, List.flatMap_cons, List.count_append, setInserted, count_disposal]
          omega
      | remove f =>
        obtain ⟨s', a1, a2, a3, a4⟩ := remove_spec h2 f
        obtain ⟨s, b1, b2, b3, b4, b5⟩ := ih s' (setMapStep m (.remove f)) hrest
          (by rw [a2]; exact AMap.nodup_del h1 _) a3
          (by intro g; rw [a2, AMap.get_del]; simp only [setMapStep]; rw [h3])
        refine ⟨s, ?_, b2, b3, b4, ?_⟩
        · rw [List.foldlM_cons]; simp only [setStep]; rw [a1]; exact b1
        · intro u
          rw [b5, a4, List.flatMap_cons, List.count_append, setInserted]
          simp
  obtain ⟨s, a1, a2, a3, a4, a5⟩ := key ops SubSet.new (fun _ => none) hops AMap.nodup_nil inv_new (fun f => rfl)
  refine ⟨s, a1, a2, a3, a4, ?_⟩
  intro u
  rw [a5]
  simp [SubSet.new, held, nodeCleanup, newNode]

theorem invoke_entry {nodes : AMap Path Node} {M : AMap Path Entry} (h : Inv nodes M) (p : Path) :
    invoke nodes p = (M.get p).toList.flatMap fun e => (handlerCall e).map fun c => (p, c) := by
  unfold invoke
  cases hg : nodes.get p with
  | none =>
    have h0 := (h.absent p).1 hg
    cases hm : M.get p with
    | none => rfl
    | some e =>
      have := cnt_pos_of_get hm List.prefix_rfl
      unfold refs at h0; omega
  | some n =>
    have := (h.present p n hg).2
    cases hm : M.get p with
    | none => rw [hm] at this; simp [this.2.2]
    | some e =>
      rw [hm] at this
      obtain ⟨a, b, c, d⟩ := this
      simp only [c, a, d, handlerCall, if_true]
      cases ho : e.onPublish <;> simp [ho]

/-- **C13.** After any history of adding (legal filters) and removing, the set has not aborted, and for every
topic without wildcard characters a publish calls, for each filter the history left subscribed that
matches the topic by MQTT's rules, exactly its handler once (if it has one), and nothing else. -/
theorem C13_dispatch (ops : List SetOp) (hops : ∀ op ∈ ops, op.Legal) :
    ∃ s, setRun ops = some s ∧ ∀ topic, (43 : UInt8) ∉ topic → (35 : UInt8) ∉ topic →
      (∀ f ls ts, Levels f ls → Levels topic ts →
        (publish s topic).filter (fun c => c.1 = ls) =
          open Classical in if Matches ls ts then
            ((setMapRun ops f).toList.flatMap handlerCall).map fun c => (ls, c)
          else []) ∧
      ∀ c ∈ publish s topic, ∃ f, Levels f c.1 ∧ (setMapRun ops f).isSome := by
  obtain ⟨s, h1, h2, h3, h4, h5⟩ := setRun_spec ops hops
  refine ⟨s, h1, ?_⟩
  intro topic hp hh
  have hw : SubscriptionSet.NoWild (split 47 topic) := by
    intro l hl
    constructor
    · rintro rfl; exact hp ((mem_of_mem_split (by decide)).2 ⟨_, hl, by simp⟩)
    · rintro rfl; exact hh ((mem_of_mem_split (by decide)).2 ⟨_, hl, by simp⟩)
  have hpub : publish s topic = visit s.nodes [] (split 47 topic) := by
    unfold publish
    rw [publishLoop_visit, publishLoop, List.append_nil]
  have hv := fun g => visit_spec h3 (split 47 topic) [] g hw
  simp only [List.nil_append] at hv
  refine ⟨?_, ?_⟩
  · intro f ls ts hls hts
    have e1 := split_of_levels hls
    have e2 := split_of_levels hts
    rw [hpub, hv, e2]
    split
    · rw [invoke_entry h3, ← e1, byLevels_get, h4]
      cases setMapRun ops f <;> simp
    · rfl
  · intro c hc
    rw [hpub] at hc
    have hm : c ∈ (visit s.nodes [] (split 47 topic)).filter (fun e => e.1 = c.1) := by
      rw [List.mem_filter]; exact ⟨hc, by simp⟩
    rw [hv] at hm
    split at hm
    · rw [invoke_entry h3] at hm
      cases hg : (byLevels s.subscriptions).get c.1 with
      | none => rw [hg] at hm; simp at hm
      | some e =>
        obtain ⟨f, hf1, hf2⟩ := byLevels_key hg
        exact ⟨f, hf1 ▸ split_levels f, by rw [← h4, hf2]; rfl⟩
    · cases hm

/-- **C13, lookups and listing.** They agree with the map obtained by applying the history. -/
theorem C13_lookup (ops : List SetOp) (hops : ∀ op ∈ ops, op.Legal) :
    ∃ s, setRun ops = some s ∧
      (∀ f, isSubscribed s f = (setMapRun ops f).isSome) ∧
      (∀ f, isInTopicTree s f = (setMapRun ops f).isSome) ∧
      (∀ f e, (f, e) ∈ getSubscriptions s ↔ setMapRun ops f = some e) ∧
      ((getSubscriptions s).map (·.1)).Nodup := by
  obtain ⟨s, h1, h2, h3, h4, h5⟩ := setRun_spec ops hops
  refine ⟨s, h1, ?_, ?_, ?_, h2⟩
  · intro f; unfold isSubscribed; rw [h4]
  · intro f
    unfold isInTopicTree
    have := existing_spec h3 (split 47 f) []
    rw [List.nil_append, byLevels_get, h4] at this
    cases he : existing s.nodes [] (split 47 f) with
    | none => rw [this.1 he]; rfl
    | some x =>
      cases hm : setMapRun ops f with
      | none => rw [this.2 hm] at he; cases he
      | some e => rfl
  · intro f e; rw [← h4]; exact AMap.mem_iff_get h2

theorem nodup_of_map {α β : Type} {f : α → β} {l : List α} (h : (l.map f).Nodup) : l.Nodup :=
  List.Pairwise.of_map f (fun _ _ hab e => hab (congrArg f e)) h

theorem held_live {nodes : AMap Path Node} {M : AMap Path Entry} (h : Inv nodes M) (u : Nat) :
    (held nodes).count (some u) = (M.flatMap fun e => setDisposal e.2).count u := by
  -- the nodes carrying a subscription are the entries of `M`
  have hperm : (nodes.filterMap fun e => (M.get e.1).map fun v => (e.1, v)).Perm M := by
    have hsub : ((nodes.filterMap fun e => (M.get e.1).map fun v => (e.1, v)).map (·.1)).Sublist (nodes.map (·.1)) := by
      induction nodes with
      | nil => exact .slnil
      | cons e l ih =>
        clear h
        rw [List.filterMap_cons]
        have ih' : ((l.filterMap fun e => (M.get e.1).map fun v => (e.1, v)).map (·.1)).Sublist (l.map (·.1)) := by
          clear ih
          induction l with
          | nil => exact .slnil
          | cons e l ih =>
            rw [List.filterMap_cons]
            cases hs : M.get e.1 with
            | none => simp only [Option.map_none]; exact ih.cons _
            | some s => simp only [Option.map_some, List.map_cons]; exact ih.cons_cons _
        cases hs : M.get e.1 with
        | none => simp only [Option.map_none]; exact ih'.cons _
        | some s => simp only [Option.map_some, List.map_cons]; exact ih'.cons_cons _
    have hnd : (nodes.filterMap fun e => (M.get e.1).map fun v => (e.1, v)).Nodup :=
      nodup_of_map (hsub.nodup h.nodup)
    have hndM : M.Nodup := h.subs
    rw [List.perm_ext_iff_of_nodup hnd (nodup_of_map hndM)]
    rintro ⟨p, v⟩
    rw [List.mem_filterMap]
    constructor
    · rintro ⟨e, _, he⟩
      simp only [Option.map_eq_some_iff, Prod.mk.injEq] at he
      obtain ⟨w, h1, rfl, rfl⟩ := he
      exact AMap.get_some_mem h1
    · intro hm
      have hg := (AMap.mem_iff_get h.subs).1 hm
      obtain ⟨n, hn⟩ := h.get_of_pos (p := p) (by
        have := cnt_pos_of_get hg List.prefix_rfl; unfold refs; omega)
      exact ⟨(p, n), AMap.get_some_mem hn, by simp [hg]⟩
  rw [← (hperm.flatMap_right _).count_eq u]
  have hall : ∀ l : AMap Path Node, (∀ e ∈ l, NodeOk M e.1 e.2) →
      (held l).count (some u) =
        ((l.filterMap fun e => (M.get e.1).map fun v => (e.1, v)).flatMap fun e => setDisposal e.2).count u := by
    intro l
    induction l with
    | nil => intro _; rfl
    | cons e l ih =>
      intro hl
      obtain ⟨p, n⟩ := e
      have hk := (hl (p, n) (by simp)).2
      have ih' := ih fun e he => hl e (by simp [he])
      simp only at hk
      rw [held_cons, List.count_append, ih', List.filterMap_cons]
      cases hm : M.get p with
      | none =>
        rw [hm] at hk
        simp [nodeCleanup, hk.2.1]
      | some v =>
        rw [hm] at hk
        obtain ⟨_, h2, _, h4⟩ := hk
        simp only [Option.map_some, List.flatMap_cons, List.count_append, nodeCleanup, h2, h4]
        rw [← count_disposal]
        rfl
  apply hall
  rintro ⟨p, n⟩ he
  exact h.present p n ((AMap.mem_iff_get h.nodup).1 he)

/-- **C13, user data.** After any history every user data with a cleanup function has been cleaned up or
belongs to a filter still subscribed, counted with multiplicity; destroying the set cleans up the rest. -/
theorem C13_user_data (ops : List SetOp) (hops : ∀ op ∈ ops, op.Legal) :
    ∃ s, setRun ops = some s ∧ ∀ u,
      s.cleaned.count (some u) + ((getSubscriptions s).flatMap fun e => setDisposal e.2).count u =
        (ops.flatMap setInserted).count u ∧
      (destroy s).cleaned.count (some u) = (ops.flatMap setInserted).count u := by
  obtain ⟨s, h1, h2, h3, h4, h5⟩ := setRun_spec ops hops
  refine ⟨s, h1, fun u => ⟨?_, ?_⟩⟩
  · rw [← h5 u, held_live h3]
    congr 1
    unfold byLevels getSubscriptions
    rw [List.flatMap_map]
  · rw [← h5 u, ← destroyTree_count s [] (some u)]
    have : (destroyTree s []).nodes = [] := by
      unfold destroyTree
      simp only [List.filter_eq_nil_iff]
      intro e _
      simp
    rw [this]
    simp [destroy, held]

/-! ## Non-vacuity -/

def exampleEntry (n : Nat) : Entry := { options := 1, onPublish := some n, cleanup := true, userdata := some (n + 100) }

/-- `a/#` (twice), `a/+`, `b`; then `b` removed; a publish on `a/b`, and one on `a`. -/
def exampleSetOps : List SetOp :=
  [.add [97, 47, 35] (exampleEntry 1), .add [97, 47, 43] (exampleEntry 2), .add [98] (exampleEntry 3),
   .add [97, 47, 35] (exampleEntry 4), .remove [98]]

example : (∀ op ∈ exampleSetOps, op.Legal) ∧
    (setRun exampleSetOps).map (fun s => ((publish s [97, 47, 98]).map (·.2.1), (publish s [97]).map (·.2.1), s.cleaned)) =
      some ([4, 2], [4], [some 101, some 103]) := by
  refine ⟨?_, by decide +kernel⟩
  intro op hop
  simp only [exampleSetOps, List.mem_cons, List.not_mem_nil, or_false] at hop
  rcases hop with rfl | rfl | rfl | rfl | rfl
  · exact (C08_filter _).1 (by decide +kernel)
  · exact (C08_filter _).1 (by decide +kernel)
  · exact (C08_filter _).1 (by decide +kernel)
  · exact (C08_filter _).1 (by decide +kernel)
  · trivial

/-- Outside the property: a topic with a level `+` (not a legal topic name) reaches the filter `+` twice. -/
theorem C13_wildcard_topic : (setRun [.add [43] (exampleEntry 1)]).map (fun s => (publish s [43]).length) = some 2 := by
  decide +kernel

end Mqtt.Props
