import Verif.Lemmas.Client5Stats
import Verif.Lemmas.Client5Run

/-!
C34: operation statistics.
-/
namespace Mqtt.Props
open Mqtt.Client5 Mqtt.V5

theorem countOf_total (l : List (Nat × Outgoing)) : countOf l = total one l := by
  unfold countOf
  induction l with
  | nil => rfl
  | cons x l ih =>
    cases h : weight x.2 <;> simp [one, h] <;> omega

theorem bytesOf_total (l : List (Nat × Outgoing)) : bytesOf l = total size l := by
  unfold bytesOf
  induction l with
  | nil => rfl
  | cons x l ih => simp [size, ih]

theorem nodup_of_nodup_map {α β} {f : α → β} {l : List α} (h : (l.map f).Nodup) : l.Nodup := by
  rw [List.Nodup, List.pairwise_map] at h
  exact h.imp fun {a b} (hne : f a ≠ f b) (he : a = b) => hne (congrArg f he)

theorem total_keys {f : Op → Int} {g : Nat × Outgoing → Int} {l : List Op} {l' : List (Nat × Outgoing)}
    (h1 : (l.map (·.uid)).Nodup) (h2 : (l'.map (·.1)).Nodup)
    (h : ∀ u n, (∃ op ∈ l, op.uid = u ∧ f op = n) ↔ ∃ x ∈ l', x.1 = u ∧ g x = n) : total f l = total g l' := by
  have e1 : total f l = total (·.2) (l.map fun op => (op.uid, f op)) := by rw [total_map]
  have e2 : total g l' = total (·.2) (l'.map fun x => (x.1, g x)) := by rw [total_map]
  rw [e1, e2]
  refine total_perm _ ((List.perm_ext_iff_of_nodup ?_ ?_).2 ?_)
  · refine nodup_of_nodup_map (f := (·.1)) ?_
    simpa [Function.comp_def] using h1
  · refine nodup_of_nodup_map (f := (·.1)) ?_
    simpa [Function.comp_def] using h2
  · rintro ⟨u, n⟩
    simpa using h u n

/-- **C34, partial**: at every moment the four statistics are the number and total size of the operations
submitted and not completed, and of those among them that were sent and wait for an acknowledgement. An
operation counts by the size of its packet without a packet id (missing: the packet id of a PUBLISH), and
not at all if it is too large to be encoded (`C34_violated_size`, `C34_violated_count`). -/
theorem C34_partial {cfg : Config} {c : Client} (h : Reachable cfg c) :
    c.ops.stats = {
      incomplete := countOf (pending c.ops.log)
      incompleteSize := bytesOf (pending c.ops.log)
      unacked := countOf (unacknowledged c.ops.log)
      unackedSize := bytesOf (unacknowledged c.ops.log) } := by
  obtain ⟨hi, hs⟩ := reachable_stat h
  have hl := hs.ledger
  have hheld : ∀ f : Op → Int, (∀ op, op.unacked = false → f op = 0) →
      total f c.ops.held = total f c.ops.unacked := by
    intro f hf
    have hz : ∀ l : List Op, (∀ op ∈ l, op.unacked = false) → total f l = 0 := by
      intro l hx
      induction l with
      | nil => rfl
      | cons o l ih =>
        simp only [total_cons]
        rw [hf o (hx o (List.mem_cons_self ..)), ih fun x hy => hx x (List.mem_cons_of_mem _ hy)]
        rfl
    simp only [OpState.held, total_append]
    rw [hz _ hs.queued, hz _ hs.writing, hz c.ops.current.toList (by simpa using hs.current)]
    omega
  have huser : ∀ op ∈ c.ops.unacked, isUser op.packet = true := by
    intro op hop
    cases hu : isUser op.packet with
    | true => rfl
    | false =>
      have h1 := ((hl.entry op (by simp [OpState.held, hop])).own hu).1
      rw [(hs.unacked op hop).1] at h1
      cases h1
  have hkeys : ∀ (f : Op → Int) (g : Nat × Outgoing → Int),
      (∀ op ∈ c.ops.unacked, ∀ p n, Client5.weight op.packet = some n → Client5.weight p = some n → op.size = n → f op = g (op.uid, p)) →
      total f c.ops.unacked = total g (unacknowledged c.ops.log) := by
    intro f g hfg
    have hval : ∀ op ∈ c.ops.unacked, ∃ p, (op.uid, p) ∈ pending c.ops.log ∧ f op = g (op.uid, p) := by
      intro op hop
      have hm : op ∈ c.ops.held := by simp [OpState.held, hop]
      obtain ⟨n, hn⟩ := Option.isSome_iff_exists.1 (hs.unacked op hop).2
      obtain ⟨p, hp1, hp2⟩ := hl.mine op hm (huser op hop)
      exact ⟨p, hp1, hfg op hop p n hn (hp2.trans hn) (((hl.entry op hm).user (huser op hop) n hn).1)⟩
    have huniq := unique_of_map hl.nodup
    refine total_keys (List.nodup_iff_count.2 hi.held.unackedOnce)
      (List.Nodup.sublist (List.Sublist.map _ List.filter_sublist) hl.nodup) fun u n => ⟨?_, ?_⟩
    · rintro ⟨op, hop, rfl, rfl⟩
      obtain ⟨p, hp1, hp2⟩ := hval op hop
      refine ⟨(op.uid, p), List.mem_filter.2 ⟨hp1, ?_⟩, rfl, hp2.symm⟩
      rw [List.contains_iff_mem, awaiting, hi.track.awaiting]
      exact List.mem_map.2 ⟨op, hop, rfl⟩
    · rintro ⟨x, hx, rfl, rfl⟩
      obtain ⟨hx1, hx2⟩ := List.mem_filter.1 hx
      rw [List.contains_iff_mem, awaiting, hi.track.awaiting] at hx2
      obtain ⟨op, hop, hu⟩ := List.mem_map.1 hx2
      obtain ⟨p, hp1, hp2⟩ := hval op hop
      have := huniq _ hp1 _ hx1 hu
      exact ⟨op, hop, hu, by rw [hp2, this]⟩
  have e1 := hl.inc1
  have e2 := hl.inc2
  have e3 := hl.una1
  have e4 := hl.una2
  rw [hheld _ (by intro op ho; simp [una1, ho])] at e3
  rw [hheld _ (by intro op ho; simp [una2, ho])] at e4
  rw [hkeys una1 one (by
    intro op hop p n h1 h2 h3
    simp [una1, one, (hs.unacked op hop).1, h2])] at e3
  rw [hkeys una2 size (by
    intro op hop p n h1 h2 h3
    simp [una2, size, (hs.unacked op hop).1, h2, h3])] at e4
  rw [countOf_total, bytesOf_total, countOf_total, bytesOf_total, ← e1, ← e2, ← e3, ← e4]

/-- **C34, range**: the counters, unsigned in the code, never go below zero, and what is unacknowledged is
part of what is incomplete. -/
theorem C34_range {cfg : Config} {c : Client} (h : Reachable cfg c) :
    0 ≤ c.ops.stats.unacked ∧ c.ops.stats.unacked ≤ c.ops.stats.incomplete ∧
    0 ≤ c.ops.stats.unackedSize ∧ c.ops.stats.unackedSize ≤ c.ops.stats.incompleteSize := by
  rw [C34_partial h]
  simp only [unacknowledged]
  generalize pending c.ops.log = l
  generalize (fun x : Nat × Outgoing => (awaiting c.ops.log).contains x.1) = t
  simp only [countOf_total, bytesOf_total]
  have h1 : ∀ x, 0 ≤ one x := by intro x; unfold one; split <;> omega
  have h2 : ∀ x, 0 ≤ size x := by intro x; unfold size; omega
  have key : ∀ f : Nat × Outgoing → Int, (∀ x, 0 ≤ f x) → 0 ≤ total f (l.filter t) ∧ total f (l.filter t) ≤ total f l := by
    intro f hf
    induction l with
    | nil => simp
    | cons x l ih =>
      have := hf x
      cases hx : t x <;> simp [hx] <;> omega
  exact ⟨(key one h1).1, (key one h1).2, (key size h2).1, (key size h2).2⟩

/-- **C34, quiet**: when everything submitted has been completed all statistics are zero. -/
theorem C34_quiet {cfg : Config} {c : Client} (h : Reachable cfg c) (hp : pending c.ops.log = []) :
    c.ops.stats = {} := by
  rw [C34_partial h, unacknowledged, hp]
  rfl

/-! ### The negations -/

/-- **C34 does not hold of sizes**: a QoS 1 publish of 8 bytes is on the wire and waits for its
acknowledgement; the reported unacknowledged size is 6. -/
theorem C34_violated_size : ∃ cfg c u p wire, Reachable cfg c ∧ .started u p wire ∈ c.ops.log ∧
    .wrote wire ∈ c.ops.log ∧ (unacknowledged c.ops.log).map (·.1) = [u] ∧ wire.length = 8 ∧ c.ops.stats.unackedSize = 6 := by
  have ht : (run {} (Client.new {}) (connectWith {} ++ [.submit (publishTo [97] 1) 0 false, .service {}])).test
      (fun c => c.ops.log.contains (.started 1 (.publish { packetId := 1, qos := 1, topic := [97] })
          [50, 6, 0, 1, 97, 0, 1, 0]) &&
        c.ops.log.contains (.wrote [50, 6, 0, 1, 97, 0, 1, 0]) &&
        decide ((unacknowledged c.ops.log).map (·.1) = [1]) && decide (c.ops.stats.unackedSize = 6)) = true := by
    decide +kernel
  obtain ⟨c, hr, hc⟩ := run_test ht
  simp only [Bool.and_eq_true, decide_eq_true_eq, List.contains_iff_mem] at hc
  exact ⟨{}, c, 1, _, _, hr, hc.1.1.1, hc.1.1.2, hc.1.2, rfl, hc.2⟩

/-- A publish with a large payload. -/
def largeView (payload : Bytes) : PublishView := { topic := [97], qos := 1, payload := payload }

theorem largeView_valid (payload : Bytes) : newPublish (largeView payload) = some (largeView payload) := by
  have h1 : validUtf8Text [97] = true := by decide +kernel
  have h2 : isValidTopic [97] = true := by decide +kernel
  have h3 : validateUserProperties [] = true := by decide +kernel
  have : validatePublish (largeView payload) = true := by
    simp [validatePublish, largeView, h1, h2, h3]
  unfold newPublish
  rw [this]
  rfl

theorem largeView_size (payload : Bytes) (h : 268435456 ≤ payload.length) :
    encodedSize (.publish (largeView payload)) = none := by
  have hx : vliSize (1 + (2 + 1) + 0 + 0 + payload.length) = none := by
    unfold vliSize
    rw [if_pos (by omega)]
  show packetSize (1 + (2 + 1) + 0 + 0 + payload.length) = none
  rw [packetSize, hx]
  rfl

/-- **C34 does not hold of counts**: a publish too large to be encoded is accepted and waits in the queue; it
is not counted. -/
theorem C34_violated_count : ∃ cfg c, Reachable cfg c ∧ (pending c.ops.log).length = 1 ∧ c.ops.held.length = 1 ∧
    c.ops.stats.incomplete = 0 := by
  obtain ⟨payload, hp⟩ : ∃ payload : Bytes, payload.length = 268435456 :=
    ⟨List.replicate 268435456 0, List.length_replicate ..⟩
  have hv := largeView_valid payload
  have hw := largeView_size payload (Nat.le_of_eq hp.symm)
  have hc : Client5.step {} (Client.new {}) (.submit (.publish (largeView payload)) 0 false) =
      .ok ⟨(Client.new {}).ops.accept (.publish (largeView payload)) 0, (Client.new {}).ctl⟩ := by
    simp [Client5.step, Client.submit, retained, isUser, isPublish, isQos1, largeView]
  refine ⟨{}, _, .step .new (e := .submit (.publish (largeView payload)) 0 false) ⟨rfl, ⟨_, hv⟩, ?_⟩ hc, rfl, rfl, ?_⟩
  · simp [Client.new]
  · have hid : withPacketId (.publish (largeView payload)) 0 = .publish (largeView payload) := rfl
    simp [OpState.accept, changeStats, OpState.newOp, isUser, hid, Client.new, hw]

/-- Not vacuous: one publish waits for its acknowledgement, a second one is queued, a third one is completed. -/
example : (run {} (Client.new {}) (connectWith {} ++
    [.submit (publishTo [97] 1) 0 false, .submit (publishTo [98] 1) 0 false, .service {},
      .writeComplete .success, .packet (.puback { packetId := 1 }) false 1, .submit (publishTo [99] 1) 0 false])).test
    (fun c => decide (c.ops.stats = { incomplete := 2, incompleteSize := 12, unacked := 1, unackedSize := 6 })) = true := by
  decide +kernel

end Mqtt.Props
