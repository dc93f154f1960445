import Verif.Lemmas.Client5Track

/-!
Statistics of the MQTT 5 client.
-/
namespace Mqtt.Client5

open Mqtt.V5

/-! ### Sums -/

def total {α} (f : α → Int) : List α → Int
  | [] => 0
  | a :: l => f a + total f l

@[simp] theorem total_nil {α} (f : α → Int) : total f [] = 0 := rfl
@[simp] theorem total_cons {α} (f : α → Int) (a : α) (l : List α) : total f (a :: l) = f a + total f l := rfl
@[simp] theorem total_append {α} (f : α → Int) (l l' : List α) : total f (l ++ l') = total f l + total f l' := by
  induction l with
  | nil => simp
  | cons a l ih => simp [ih]; omega
theorem total_perm {α} (f : α → Int) {l l' : List α} (h : l.Perm l') : total f l = total f l' := by
  induction h with
  | nil => rfl
  | cons a _ ih => simp [ih]
  | swap a b l => simp; omega
  | trans _ _ ih1 ih2 => exact ih1.trans ih2
theorem total_congr {α} {f g : α → Int} {l : List α} (h : ∀ a ∈ l, f a = g a) : total f l = total g l := by
  induction l with
  | nil => rfl
  | cons a l ih =>
    simp only [total_cons]
    rw [h a (List.mem_cons_self ..), ih fun b hb => h b (List.mem_cons_of_mem _ hb)]
theorem total_map {α β} (f : β → Int) (g : α → β) (l : List α) : total f (l.map g) = total (fun a => f (g a)) l := by
  induction l with
  | nil => rfl
  | cons a l ih => simp [ih]

/-- Taking out the only entry with some key. -/
theorem total_remove {f : Nat × Outgoing → Int} {l : List (Nat × Outgoing)} (hn : (l.map (·.1)).Nodup) {x : Nat × Outgoing}
    (hx : x ∈ l) : total f (l.filter fun y => y.1 != x.1) = total f l - f x := by
  induction l with
  | nil => cases hx
  | cons y l ih =>
    rw [List.map_cons, List.nodup_cons] at hn
    rcases List.mem_cons.1 hx with rfl | hx
    · have : l.filter (fun y => y.1 != x.1) = l := by
        refine List.filter_eq_self.2 fun y hy => ?_
        simp only [bne_iff_ne, ne_eq]
        intro he
        exact hn.1 (he ▸ List.mem_map.2 ⟨y, hy, rfl⟩)
      simp [this]
      omega
    · have hne : y.1 ≠ x.1 := fun he => hn.1 (he ▸ List.mem_map.2 ⟨x, hx, rfl⟩)
      simp [hne, ih hn.2 hx]
      omega

/-! ### Weights -/

@[simp] theorem weight_withPacketId (p : Outgoing) (id : Nat) : weight (withPacketId p id) = weight p := by
  cases p <;> rfl

@[simp] theorem weight_markDisconnected (op : Op) : weight (markDisconnected op).packet = weight op.packet := by
  unfold markDisconnected
  split
  · rename_i v h
    split
    · rw [h]; rfl
    · rw [weight_withPacketId, h]
  · rename_i p h
    rw [weight_withPacketId]

theorem withPacketId_self {p : Outgoing} (h : packetId p = 0) : withPacketId p 0 = p := by
  cases p <;> first | rfl | (simp only [packetId] at h; simp only [withPacketId]; rw [← h])

theorem weight_eq {p : Outgoing} (h : packetId p = 0) : weight p = encodedSize p := by
  rw [weight, withPacketId_self h]

theorem packetSize_pos {t n : Nat} (h : packetSize t = some n) : n ≠ 0 := by
  unfold packetSize at h
  cases hv : vliSize t with
  | none => simp [hv] at h
  | some m => simp [hv] at h; omega

theorem encodedSize_pos {p : Outgoing} {n : Nat} (h : encodedSize p = some n) : n ≠ 0 := by
  cases p <;> simp only [encodedSize] at h
  case pingreq => cases h; simp
  case connect => cases h
  all_goals
    rw [Option.bind_eq_some_iff] at h
    obtain ⟨l, _, h⟩ := h
    exact packetSize_pos h

theorem weight_pos {p : Outgoing} {n : Nat} (h : weight p = some n) : n ≠ 0 := encodedSize_pos h

/-- Contribution of a packet to a count and a size. -/
def one (x : Nat × Outgoing) : Int := if (weight x.2).isSome then 1 else 0
def size (x : Nat × Outgoing) : Int := (((weight x.2).getD 0 : Nat) : Int)

/-- Contribution of an operation to the unacknowledged ones. -/
def una1 (op : Op) : Int := if op.unacked then 1 else 0
def una2 (op : Op) : Int := if op.unacked then (op.size : Int) else 0

/-- Size and flags of an operation agree with its packet. -/
structure Entry (op : Op) : Prop where
  user : isUser op.packet = true → ∀ n, weight op.packet = some n → op.size = n ∧ op.incomplete = true
  unknown : isUser op.packet = true → weight op.packet = none → op.size = 0 ∧ op.incomplete = false ∧ op.unacked = false ∧ packetId op.packet = 0
  own : isUser op.packet = false → op.unacked = false ∧ op.incomplete = false

/-- The statistics agree with the log and the operations. -/
structure Ledger (pool : List Op) (log : List Effect) (st : Stats) (n : Nat) : Prop where
  fresh : ∀ x ∈ pending log, x.1 < n
  nodup : ((pending log).map (·.1)).Nodup
  mine : ∀ op ∈ pool, isUser op.packet = true → ∃ p, (op.uid, p) ∈ pending log ∧ weight p = weight op.packet
  other : ∀ op ∈ pool, isUser op.packet = false → op.uid ∉ (pending log).map (·.1)
  uids : (pool.map (·.uid)).Nodup
  entry : ∀ op ∈ pool, Entry op
  inc1 : st.incomplete = total one (pending log)
  inc2 : st.incompleteSize = total size (pending log)
  una1 : st.unacked = total una1 pool
  una2 : st.unackedSize = total una2 pool

theorem Ledger.perm {pool pool' : List Op} {log : List Effect} {st : Stats} {n : Nat} (h : Ledger pool log st n)
    (hp : pool.Perm pool') : Ledger pool' log st n :=
  ⟨h.fresh, h.nodup, fun op ho => h.mine op (hp.mem_iff.2 ho), fun op ho => h.other op (hp.mem_iff.2 ho),
    (hp.map _).nodup_iff.1 h.uids, fun op ho => h.entry op (hp.mem_iff.2 ho), h.inc1, h.inc2,
    by rw [h.una1, total_perm _ hp], by rw [h.una2, total_perm _ hp]⟩

theorem Ledger.log {pool : List Op} {log log' : List Effect} {st : Stats} {n : Nat} (h : Ledger pool log st n)
    (hp : pending log' = pending log) : Ledger pool log' st n := by
  constructor
  all_goals first
    | (rw [hp]; first | exact h.fresh | exact h.nodup | exact h.mine | exact h.other | exact h.inc1 | exact h.inc2)
    | exact h.uids | exact h.entry | exact h.una1 | exact h.una2

/-- Effects that are neither a submission nor a completion. -/
def Effect.plain : Effect → Bool
  | .submitted _ _ => false
  | .completed _ _ _ _ => false
  | _ => true

theorem pending_plain {l new : List Effect} (h : ∀ e ∈ new, e.plain = true) : pending (l ++ new) = pending l := by
  rw [pending_append]
  generalize pending l = t
  induction new generalizing t with
  | nil => rfl
  | cons e new ih =>
    rw [List.foldl_cons, ih (fun x hx => h x (List.mem_cons_of_mem _ hx))]
    have := h e (List.mem_cons_self ..)
    cases e <;> simp_all [Effect.plain, pendingOne]

theorem changeStats_own (st : Stats) {op : Op} (h : isUser op.packet = false) (a b : Bool) :
    changeStats st op a b = (st, op) := by
  simp [changeStats, h]

theorem changeStats_unknown (st : Stats) {op : Op} (he : Entry op) (hu : isUser op.packet = true)
    (hw : weight op.packet = none) (a b : Bool) : changeStats st op a b = (st, op) := by
  obtain ⟨h1, h2, h3, h4⟩ := he.unknown hu hw
  rw [weight_eq h4] at hw
  simp [changeStats, hu, h1, hw]

theorem changeStats_known (st : Stats) {op : Op} (he : Entry op) (hu : isUser op.packet = true) {n : Nat}
    (hw : weight op.packet = some n) (a b : Bool) : changeStats st op a b =
      ({ incomplete := if a then st.incomplete else st.incomplete - 1
         incompleteSize := if a then st.incompleteSize else st.incompleteSize - n
         unacked := st.unacked + (if b then 1 else 0) - una1 op
         unackedSize := st.unackedSize + (if b then (n : Int) else 0) - una2 op },
        { op with incomplete := a, unacked := b }) := by
  obtain ⟨h1, h2⟩ := he.user hu n hw
  have h3 := weight_pos hw
  simp only [changeStats, hu, Bool.not_true, Bool.false_eq_true, if_false, h1, h3, h2, bump, una1, una2]
  cases a <;> cases b <;> cases hx : op.unacked <;> simp <;> first | done | omega

/-- Completing an operation. -/
theorem Ledger.complete {op : Op} {pool : List Op} {log : List Effect} {st : Stats} {n : Nat}
    (h : Ledger (op :: pool) log st n) (e : Error) (a : Option Received) :
    Ledger pool (log ++ [.completed op.uid op.packet e a]) (changeStats st op false false).1 n := by
  have hp : pending (log ++ [.completed op.uid op.packet e a]) = (pending log).filter fun x => x.1 != op.uid := by
    rw [pending_append]; rfl
  have hmem : op ∈ op :: pool := List.mem_cons_self ..
  have hne : ∀ o ∈ pool, o.uid ≠ op.uid := by
    intro o ho he
    have := h.uids
    rw [List.map_cons, List.nodup_cons] at this
    exact this.1 (he ▸ List.mem_map.2 ⟨o, ho, rfl⟩)
  have base : ∀ st', st'.incomplete = total one ((pending log).filter fun x => x.1 != op.uid) →
      st'.incompleteSize = total size ((pending log).filter fun x => x.1 != op.uid) →
      st'.unacked = total Client5.una1 pool → st'.unackedSize = total Client5.una2 pool →
      Ledger pool (log ++ [.completed op.uid op.packet e a]) st' n := by
    intro st' h1 h2 h3 h4
    refine ⟨?_, ?_, ?_, ?_, ?_, fun o ho => h.entry o (List.mem_cons_of_mem _ ho), ?_, ?_, h3, h4⟩
    · rw [hp]; intro x hx; exact h.fresh x (List.mem_filter.1 hx).1
    · rw [hp]; exact List.Nodup.sublist (List.Sublist.map _ List.filter_sublist) h.nodup
    · intro o ho hu
      obtain ⟨p, hp1, hp2⟩ := h.mine o (List.mem_cons_of_mem _ ho) hu
      rw [hp]
      exact ⟨p, List.mem_filter.2 ⟨hp1, by simpa using hne o ho⟩, hp2⟩
    · intro o ho hu hx
      rw [hp] at hx
      obtain ⟨x, hx1, hx2⟩ := List.mem_map.1 hx
      exact h.other o (List.mem_cons_of_mem _ ho) hu (List.mem_map.2 ⟨x, (List.mem_filter.1 hx1).1, hx2⟩)
    · have := h.uids; rw [List.map_cons, List.nodup_cons] at this; exact this.2
    · rw [hp]; exact h1
    · rw [hp]; exact h2
  have h3 := h.una1
  have h4 := h.una2
  simp only [total_cons] at h3 h4
  cases hu : isUser op.packet with
  | false =>
    have hx : (pending log).filter (fun x => x.1 != op.uid) = pending log := by
      refine List.filter_eq_self.2 fun x hx => ?_
      simp only [bne_iff_ne, ne_eq]
      intro he
      exact h.other op hmem hu (List.mem_map.2 ⟨x, hx, he⟩)
    rw [changeStats_own st hu]
    have hz : Client5.una1 op = 0 ∧ Client5.una2 op = 0 := by
      simp [Client5.una1, Client5.una2, ((h.entry op hmem).own hu).1]
    refine base _ (by rw [hx]; exact h.inc1) (by rw [hx]; exact h.inc2) ?_ ?_
    · rw [h3, hz.1]; omega
    · rw [h4, hz.2]; omega
  | true =>
    obtain ⟨p, hp1, hp2⟩ := h.mine op hmem hu
    have r1 := total_remove (f := one) h.nodup hp1
    have r2 := total_remove (f := size) h.nodup hp1
    simp only at r1 r2
    rw [← h.inc1] at r1
    rw [← h.inc2] at r2
    simp only [one, size, hp2] at r1 r2
    cases hw : weight op.packet with
    | none =>
      rw [changeStats_unknown st (h.entry op hmem) hu hw]
      have hz : Client5.una1 op = 0 ∧ Client5.una2 op = 0 := by
        simp [Client5.una1, Client5.una2, ((h.entry op hmem).unknown hu hw).2.2.1]
      rw [hw] at r1 r2
      refine base _ ?_ ?_ ?_ ?_
      · show st.incomplete = _; rw [show total one _ = _ from r1]; simp
      · show st.incompleteSize = _; rw [show total size _ = _ from r2]; simp
      · rw [h3, hz.1]; omega
      · rw [h4, hz.2]; omega
    | some m =>
      rw [changeStats_known st (h.entry op hmem) hu hw]
      rw [hw] at r1 r2
      refine base _ ?_ ?_ ?_ ?_
      · show st.incomplete - 1 = _; rw [show total one _ = _ from r1]; simp
      · show st.incompleteSize - m = _; rw [show total size _ = _ from r2]; simp
      · show st.unacked + 0 - _ = _; rw [h3]; omega
      · show st.unackedSize + 0 - _ = _; rw [h4]; omega

theorem Ledger.completeAll {ops pool : List Op} {log : List Effect} {st : Stats} {n : Nat}
    (h : Ledger (ops ++ pool) log st n) (e : Error) :
    Ledger pool (log ++ completions ops e) (completeStats st ops) n := by
  induction ops generalizing log st with
  | nil => simpa [completions, completeStats] using h
  | cons op ops ih =>
    have := ih (h.complete (op := op) (pool := ops ++ pool) e none)
    simpa [completions, completeStats] using this

/-- Changing the flags of an operation that stays incomplete. -/
theorem Ledger.change {op : Op} {pool : List Op} {log : List Effect} {st : Stats} {n : Nat}
    (h : Ledger (op :: pool) log st n) (b : Bool) :
    Ledger ((changeStats st op true b).2 :: pool) log (changeStats st op true b).1 n := by
  have hmem : op ∈ op :: pool := List.mem_cons_self ..
  cases hu : isUser op.packet with
  | false => rw [changeStats_own st hu]; exact h
  | true =>
    cases hw : weight op.packet with
    | none => rw [changeStats_unknown st (h.entry op hmem) hu hw]; exact h
    | some m =>
      rw [changeStats_known st (h.entry op hmem) hu hw]
      have h3 := h.una1
      have h4 := h.una2
      simp only [total_cons] at h3 h4
      obtain ⟨hs, hi⟩ := (h.entry op hmem).user hu m hw
      refine ⟨h.fresh, h.nodup, ?_, ?_, h.uids, ?_, h.inc1, h.inc2, ?_, ?_⟩
      · intro o ho hou
        rcases List.mem_cons.1 ho with rfl | ho
        · exact h.mine op hmem hu
        · exact h.mine o (List.mem_cons_of_mem _ ho) hou
      · intro o ho hou
        rcases List.mem_cons.1 ho with rfl | ho
        · exact h.other op hmem hou
        · exact h.other o (List.mem_cons_of_mem _ ho) hou
      · intro o ho
        rcases List.mem_cons.1 ho with rfl | ho
        · refine ⟨fun _ k hk => ?_, fun _ hk => ?_, fun hx => ?_⟩
          · exact ⟨((h.entry op hmem).user hu k hk).1, rfl⟩
          · rw [show weight op.packet = none from hk] at hw; cases hw
          · rw [show isUser op.packet = false from hx] at hu; cases hu
        · exact h.entry o (List.mem_cons_of_mem _ ho)
      · simp only [total_cons]
        rw [h3]
        simp only [Client5.una1]
        omega
      · simp only [total_cons]
        rw [h4]
        simp only [Client5.una2, hs]
        omega

theorem Ledger.changeAll {ops pool : List Op} {log : List Effect} {st : Stats} {n : Nat}
    (h : Ledger (ops ++ pool) log st n) (b : Bool) :
    Ledger ((changeStatsAll st true b ops).2 ++ pool) log (changeStatsAll st true b ops).1 n := by
  induction ops generalizing st pool with
  | nil => exact h
  | cons op ops ih =>
    have h1 := h.change (op := op) (pool := ops ++ pool) b
    have h2 := ih (pool := (changeStats st op true b).2 :: pool) (h1.perm List.perm_middle.symm)
    exact h2.perm List.perm_middle

/-- Another version of the same operation. -/
structure Alike (op op' : Op) : Prop where
  uid : op'.uid = op.uid
  user : isUser op'.packet = isUser op.packet
  weight : weight op'.packet = weight op.packet
  size : op'.size = op.size
  incomplete : op'.incomplete = op.incomplete
  unacked : op'.unacked = op.unacked
  id : Client5.weight op.packet = none → packetId op.packet = 0 → packetId op'.packet = 0

theorem Ledger.replace {op op' : Op} {pool : List Op} {log : List Effect} {st : Stats} {n : Nat}
    (h : Ledger (op :: pool) log st n) (ha : Alike op op') : Ledger (op' :: pool) log st n := by
  have hmem : op ∈ op :: pool := List.mem_cons_self ..
  have h3 := h.una1
  have h4 := h.una2
  simp only [total_cons] at h3 h4
  refine ⟨h.fresh, h.nodup, ?_, ?_, ?_, ?_, h.inc1, h.inc2, ?_, ?_⟩
  · intro o ho hou
    rcases List.mem_cons.1 ho with rfl | ho
    · rw [ha.uid, ha.weight]; exact h.mine op hmem (ha.user ▸ hou)
    · exact h.mine o (List.mem_cons_of_mem _ ho) hou
  · intro o ho hou
    rcases List.mem_cons.1 ho with rfl | ho
    · rw [ha.uid]; exact h.other op hmem (ha.user ▸ hou)
    · exact h.other o (List.mem_cons_of_mem _ ho) hou
  · have := h.uids; rw [List.map_cons] at this ⊢; rw [ha.uid]; exact this
  · intro o ho
    rcases List.mem_cons.1 ho with rfl | ho
    · have he := h.entry op hmem
      refine ⟨?_, ?_, ?_⟩
      · rw [ha.user, ha.weight, ha.size, ha.incomplete]; exact he.user
      · rw [ha.user, ha.weight, ha.size, ha.incomplete, ha.unacked]
        intro hu hw
        obtain ⟨a, b, c, d⟩ := he.unknown hu hw
        exact ⟨a, b, c, ha.id hw d⟩
      · rw [ha.user, ha.incomplete, ha.unacked]; exact he.own
    · exact h.entry o (List.mem_cons_of_mem _ ho)
  · rw [h3]; simp [Client5.una1, ha.unacked]
  · rw [h4]; simp [Client5.una2, ha.unacked, ha.size]

theorem Ledger.replaceAll {ops pool : List Op} {f : Op → Op} {log : List Effect} {st : Stats} {n : Nat}
    (h : Ledger (ops ++ pool) log st n) (hf : ∀ op ∈ ops, Alike op (f op)) : Ledger (ops.map f ++ pool) log st n := by
  induction ops generalizing pool with
  | nil => exact h
  | cons op ops ih =>
    have h1 := h.replace (op := op) (pool := ops ++ pool) (hf op (List.mem_cons_self ..))
    have h2 := ih (pool := f op :: pool) (h1.perm List.perm_middle.symm) fun o ho => hf o (List.mem_cons_of_mem _ ho)
    exact h2.perm List.perm_middle

theorem Ledger.drop {op : Op} {pool : List Op} {log : List Effect} {st : Stats} {n : Nat}
    (h : Ledger (op :: pool) log st n) (hz : op.unacked = false) : Ledger pool log st n := by
  have h3 := h.una1
  have h4 := h.una2
  simp only [total_cons] at h3 h4
  refine ⟨h.fresh, h.nodup, fun o ho => h.mine o (List.mem_cons_of_mem _ ho),
    fun o ho => h.other o (List.mem_cons_of_mem _ ho), ?_, fun o ho => h.entry o (List.mem_cons_of_mem _ ho),
    h.inc1, h.inc2, ?_, ?_⟩
  · have := h.uids; rw [List.map_cons, List.nodup_cons] at this; exact this.2
  · rw [h3]; simp [Client5.una1, hz]
  · rw [h4]; simp [Client5.una2, hz]

/-- A new operation of the client itself. -/
theorem Ledger.push {op : Op} {pool : List Op} {log : List Effect} {st : Stats} {n : Nat}
    (h : Ledger pool log st n) (hn : n ∉ pool.map (·.uid)) (hu : op.uid = n) (hp : isUser op.packet = false)
    (h1 : op.unacked = false) (h2 : op.incomplete = false) : Ledger (op :: pool) log st (n + 1) := by
  refine ⟨fun x hx => Nat.lt_succ_of_lt (h.fresh x hx), h.nodup, ?_, ?_, ?_, ?_, h.inc1, h.inc2, ?_, ?_⟩
  · intro o ho hou
    rcases List.mem_cons.1 ho with rfl | ho
    · rw [hp] at hou; cases hou
    · exact h.mine o ho hou
  · intro o ho hou
    rcases List.mem_cons.1 ho with rfl | ho
    · intro hx
      obtain ⟨x, hx1, hx2⟩ := List.mem_map.1 hx
      have := h.fresh x hx1
      omega
    · exact h.other o ho hou
  · rw [List.map_cons, List.nodup_cons, hu]; exact ⟨hn, h.uids⟩
  · intro o ho
    rcases List.mem_cons.1 ho with rfl | ho
    · exact ⟨fun hx => absurd hx (by simp [hp]), fun hx => absurd hx (by simp [hp]), fun _ => ⟨h1, h2⟩⟩
    · exact h.entry o ho
  · simp [Client5.una1, h1, h.una1]
  · simp [Client5.una2, h1, h.una2]

theorem Ledger.accept {pool : List Op} {log : List Effect} {st : Stats} {n : Nat} (h : Ledger pool log st n)
    (hn : n ∉ pool.map (·.uid)) {op : Op} (hu : op.uid = n) (hp : isUser op.packet = true)
    (hid : packetId op.packet = 0) (h0 : op.size = 0) (h1 : op.unacked = false) (h2 : op.incomplete = false) :
    Ledger ((changeStats st op true false).2 :: pool) (log ++ [.submitted n op.packet]) (changeStats st op true false).1
      (n + 1) := by
  have hpend : pending (log ++ [.submitted n op.packet]) = pending log ++ [(n, op.packet)] := by
    rw [pending_append]; rfl
  have hw := weight_eq hid
  have base : ∀ st' op', op'.uid = n → op'.packet = op.packet → Entry op' → op'.unacked = false →
      st'.incomplete = st.incomplete + one (n, op.packet) →
      st'.incompleteSize = st.incompleteSize + size (n, op.packet) →
      st'.unacked = st.unacked → st'.unackedSize = st.unackedSize →
      Ledger (op' :: pool) (log ++ [.submitted n op.packet]) st' (n + 1) := by
    intro st' op' e1 e2 e3 e4 e5 e6 e7 e8
    refine ⟨?_, ?_, ?_, ?_, ?_, ?_, ?_, ?_, ?_, ?_⟩
    · rw [hpend]
      intro x hx
      rcases List.mem_append.1 hx with hx | hx
      · exact Nat.lt_succ_of_lt (h.fresh x hx)
      · rw [List.mem_singleton] at hx; subst hx; exact Nat.lt_succ_self n
    · rw [hpend, List.map_append, List.nodup_append]
      refine ⟨h.nodup, by simp, ?_⟩
      intro a ha b hb
      obtain ⟨x, hx1, hx2⟩ := List.mem_map.1 ha
      have := h.fresh x hx1
      simp at hb
      omega
    · intro o ho hou
      rw [hpend]
      rcases List.mem_cons.1 ho with rfl | ho
      · exact ⟨op.packet, List.mem_append_right _ (by rw [e1]; exact List.mem_singleton.2 rfl), by rw [e2]⟩
      · obtain ⟨p, hp1, hp2⟩ := h.mine o ho hou
        exact ⟨p, List.mem_append_left _ hp1, hp2⟩
    · intro o ho hou
      rcases List.mem_cons.1 ho with rfl | ho
      · rw [e2, hp] at hou; cases hou
      · rw [hpend, List.map_append, List.mem_append]
        rintro (hx | hx)
        · exact h.other o ho hou hx
        · simp at hx
          exact hn (hx ▸ List.mem_map.2 ⟨o, ho, rfl⟩)
    · rw [List.map_cons, List.nodup_cons, e1]; exact ⟨hn, h.uids⟩
    · intro o ho
      rcases List.mem_cons.1 ho with rfl | ho
      · exact e3
      · exact h.entry o ho
    · rw [hpend, total_append, e5, h.inc1]; simp
    · rw [hpend, total_append, e6, h.inc2]; simp
    · rw [e7, h.una1]; simp [Client5.una1, e4]
    · rw [e8, h.una2]; simp [Client5.una2, e4]
  cases hs : encodedSize op.packet with
  | none =>
    have : changeStats st op true false = (st, op) := by simp [changeStats, hp, h0, hs]
    rw [this]
    refine base st op hu rfl ⟨?_, ?_, ?_⟩ h1 ?_ ?_ rfl rfl
    · intro _ k hk; rw [hw, hs] at hk; cases hk
    · intro _ _; exact ⟨h0, h2, h1, hid⟩
    · intro hx; rw [hp] at hx; cases hx
    · simp [one, hw, hs]
    · simp [size, hw, hs]
  | some k =>
    have hk0 := encodedSize_pos hs
    have : changeStats st op true false =
        ({ incomplete := st.incomplete + 1, incompleteSize := st.incompleteSize + k
           unacked := st.unacked, unackedSize := st.unackedSize }, { op with size := k, incomplete := true, unacked := false }) := by
      simp [changeStats, hp, h0, hs, bump, h1, h2]
    rw [this]
    refine base _ _ hu rfl ⟨?_, ?_, ?_⟩ rfl ?_ ?_ rfl rfl
    · intro _ m hm
      simp only at hm
      rw [hw, hs] at hm
      cases hm
      exact ⟨rfl, rfl⟩
    · intro _ hx; simp only at hx; rw [hw, hs] at hx; cases hx
    · intro hx; simp only at hx; rw [hp] at hx; cases hx
    · simp [one, hw, hs]
    · simp [size, hw, hs]

theorem Ledger.reject {pool : List Op} {log : List Effect} {st : Stats} {n : Nat} (h : Ledger pool log st n)
    (p : Outgoing) (e : Error) : Ledger pool (log ++ [.submitted n p, .completed n p e none]) st (n + 1) := by
  have hpend : pending (log ++ [.submitted n p, .completed n p e none]) = pending log := by
    rw [pending_append]
    simp only [List.foldl_cons, List.foldl_nil, pendingOne, List.filter_append]
    have : (pending log).filter (fun x => x.1 != n) = pending log := by
      refine List.filter_eq_self.2 fun x hx => ?_
      have := h.fresh x hx
      simp only [bne_iff_ne, ne_eq]
      omega
    rw [this]
    simp
  have h' := h.log hpend
  exact ⟨fun x hx => Nat.lt_succ_of_lt (h'.fresh x hx), h'.nodup, h'.mine, h'.other, h'.uids, h'.entry, h'.inc1, h'.inc2,
    h'.una1, h'.una2⟩

/-! ### The invariant -/

structure StatInv (c : Client) : Prop where
  ledger : Ledger c.ops.held c.ops.log c.ops.stats c.ops.nextUid
  queued : ∀ op ∈ c.ops.queued, op.unacked = false
  current : ∀ op, c.ops.current = some op → op.unacked = false
  writing : ∀ op ∈ c.ops.writing, op.unacked = false
  unacked : ∀ op ∈ c.ops.unacked, op.unacked = true ∧ (weight op.packet).isSome = true

theorem stat_new (cfg : Config) : StatInv (Client.new cfg) := by
  refine ⟨?_, by simp [Client.new], by simp [Client.new], by simp [Client.new], by simp [Client.new]⟩
  constructor <;> simp [Client.new, OpState.held, pending]

theorem HeldInv.newUid {c : Client} (h : HeldInv c) : c.ops.nextUid ∉ c.ops.held.map (·.uid) := by
  intro hx
  have h1 := h.once c.ops.nextUid
  have h2 := List.count_pos_iff.2 hx
  simp only [places, born, Nat.lt_irrefl, if_false] at h1
  omega

theorem StatInv.same {c : Client} (h : StatInv c) {s : OpState} {k : Control} (h1 : s.queued = c.ops.queued)
    (h2 : s.current = c.ops.current) (h3 : s.writing = c.ops.writing) (h4 : s.unacked = c.ops.unacked)
    (h5 : s.stats = c.ops.stats) (h6 : s.nextUid = c.ops.nextUid) (h7 : pending s.log = pending c.ops.log) :
    StatInv ⟨s, k⟩ := by
  refine ⟨?_, by rw [h1]; exact h.queued, by rw [h2]; exact h.current, by rw [h3]; exact h.writing,
    by rw [h4]; exact h.unacked⟩
  show Ledger s.held s.log s.stats s.nextUid
  rw [show s.held = c.ops.held by simp [OpState.held, h1, h2, h3, h4], h5, h6]
  exact h.ledger.log h7

theorem StatInv.sameOps {c : Client} (h : StatInv c) {s : OpState} {k : Control} (hs : SameOps c.ops s)
    (h7 : pending s.log = pending c.ops.log) : StatInv ⟨s, k⟩ :=
  h.same hs.queued hs.current hs.writing hs.unacked hs.stats hs.nextUid h7

theorem StatInv.queuePuback {c : Client} (hn : c.ops.nextUid ∉ c.ops.held.map (·.uid)) (h : StatInv c) (id : Nat) :
    StatInv ⟨c.ops.queuePuback id, c.ctl⟩ := by
  obtain ⟨x, y, h1, h2, _⟩ := insertPuback_split (c.ops.newOp (.puback { packetId := id })) c.ops.queued
  refine ⟨?_, ?_, h.current, h.writing, h.unacked⟩
  · have hl := (h.ledger.push hn (op := c.ops.newOp (.puback { packetId := id })) rfl rfl rfl rfl).log
      (log' := c.ops.log ++ [.pubackQueued c.ops.nextUid id]) (pending_plain (by simp [Effect.plain]))
    refine hl.perm ?_
    simp only [OpState.held, OpState.queuePuback, h2]
    conv => lhs; rw [h1]
    refine List.perm_iff_count.2 fun x => ?_
    simp only [List.count_append, List.count_cons]
    omega
  · intro o ho
    simp only [OpState.queuePuback, h2, List.mem_append, List.mem_cons] at ho
    have := h.queued
    simp only [h1, List.mem_append] at this
    rcases ho with ho | rfl | ho
    · exact this o (.inl ho)
    · rfl
    · exact this o (.inr ho)

/-- An operation waiting for an acknowledgement is completed. -/
theorem StatInv.remove {c : Client} (h : StatInv c) {op : Op} {rest : List Op} {uid : Nat} {t : AMap Nat Nat}
    {e : Error} {a : Option Received} (hu : takeUid uid c.ops.unacked = some (op, rest)) :
    StatInv ⟨({ c.ops with unacked := rest, table := t } : OpState).complete op e a, c.ctl⟩ := by
  obtain ⟨x, y, h1, h2, _⟩ := takeUid_split hu
  have hp : c.ops.held.Perm (op :: (c.ops.queued ++ (c.ops.current.toList ++ (c.ops.writing ++ rest)))) := by
    simp only [OpState.held, h1, h2]
    refine List.perm_iff_count.2 fun x => ?_
    simp only [List.count_append, List.count_cons]
    omega
  refine ⟨(h.ledger.perm hp).complete e a, h.queued, h.current, h.writing, fun o ho => h.unacked o ?_⟩
  simp only [OpState.complete, h2, List.mem_append] at ho
  simp only [h1, List.mem_append, List.mem_cons]
  rcases ho with ho | ho
  · exact .inl ho
  · exact .inr (.inr ho)

theorem weight_mark (op : Op) : weight (markDisconnected op).packet = weight op.packet := by
  unfold markDisconnected
  split
  · rename_i v h
    split
    · rw [h]; rfl
    · simp
  · simp

theorem mark_flags (op : Op) : (markDisconnected op).size = op.size ∧ (markDisconnected op).incomplete = op.incomplete ∧
    (markDisconnected op).unacked = op.unacked := by
  unfold markDisconnected
  split
  · split <;> exact ⟨rfl, rfl, rfl⟩
  · exact ⟨rfl, rfl, rfl⟩

theorem alike_mark (op : Op) : Alike op (markDisconnected op) := by
  obtain ⟨h1, h2, h3⟩ := mark_flags op
  refine ⟨by simp, by simp, weight_mark op, h1, h2, h3, ?_⟩
  intro _ hz
  rw [markDisconnected_packetId]
  split <;> simp [hz]

theorem changeStats_unflag (st : Stats) {op : Op} (he : Entry op) :
    (changeStats st op true false).2.unacked = false := by
  cases hu : isUser op.packet with
  | false => rw [changeStats_own st hu]; exact (he.own hu).1
  | true =>
    cases hw : weight op.packet with
    | none => rw [changeStats_unknown st he hu hw]; exact (he.unknown hu hw).2.2.1
    | some n => rw [changeStats_known st he hu hw]

theorem changeStatsAll_unflag (st : Stats) {ops : List Op} (he : ∀ op ∈ ops, Entry op) :
    ∀ op ∈ (changeStatsAll st true false ops).2, op.unacked = false := by
  induction ops generalizing st with
  | nil => simp [changeStatsAll]
  | cons o ops ih =>
    intro op hop
    rw [changeStatsAll] at hop
    rcases List.mem_cons.1 hop with rfl | hop
    · exact changeStats_unflag st (he o (List.mem_cons_self ..))
    · exact ih _ (fun x hx => he x (List.mem_cons_of_mem _ hx)) op hop

theorem mem_keep {b : OfflineBehavior} {ops : List Op} {op : Op} (h : op ∈ keep b ops) : op ∈ ops :=
  (List.mem_filter.1 h).1

theorem mem_keepUnacked {b : OfflineBehavior} {ops : List Op} {op : Op} (h : op ∈ keepUnacked b ops) : op ∈ ops :=
  (List.mem_filter.1 h).1

theorem keep_lose_perm (b : OfflineBehavior) (ops : List Op) : (lose b ops ++ keep b ops).Perm ops :=
  List.perm_append_comm.trans (List.filter_append_perm ..)

theorem keepUnacked_perm (b : OfflineBehavior) (ops : List Op) : (loseUnacked b ops ++ keepUnacked b ops).Perm ops :=
  List.filter_append_perm ..

theorem stat_disconnection {cfg : Config} {c : Client} (h : StatInv c) (k : Control) :
    StatInv ⟨c.ops.onDisconnection cfg, k⟩ := by
  have hq : ∀ op ∈ c.ops.current.toList ++ c.ops.queued, op.unacked = false := by
    intro op hop
    rcases List.mem_append.1 hop with hop | hop
    · exact h.current op (by simpa using hop)
    · exact h.queued op hop
  refine ⟨?_, ?_, by simp, by simp, ?_⟩
  · have h1 : Ledger (c.ops.unacked ++ (c.ops.writing ++ (c.ops.current.toList ++ c.ops.queued))) c.ops.log c.ops.stats
        c.ops.nextUid := h.ledger.perm (by
      refine List.perm_iff_count.2 fun x => ?_
      simp only [OpState.held, List.count_append]; omega)
    have h2 := h1.replaceAll (f := markDisconnected) fun op _ => alike_mark op
    have h3 : Ledger (c.ops.lostOnDisconnection cfg ++ (c.ops.onDisconnection cfg).held) c.ops.log c.ops.stats
        c.ops.nextUid := h2.perm (by
      have p1 := keep_lose_perm cfg.offline (c.ops.current.toList ++ c.ops.queued)
      have p2 := keepUnacked_perm cfg.offline (c.ops.unacked.map markDisconnected)
      refine List.perm_iff_count.2 fun x => ?_
      have q1 := List.perm_iff_count.1 p1 x
      have q2 := List.perm_iff_count.1 p2 x
      simp only [OpState.held, OpState.lostOnDisconnection, onDisconnection_queued, onDisconnection_current,
        onDisconnection_writing, onDisconnection_unacked, List.count_append, Option.toList_none, List.count_nil] at q1 q2 ⊢
      omega)
    have h4 := h3.completeAll .offlinePolicy
    simp only [onDisconnection_stats, onDisconnection_log, onDisconnection_nextUid, ← List.append_assoc]
    exact h4.log (pending_plain (by simp [Effect.plain]))
  · intro op hop
    simp only [onDisconnection_queued] at hop
    exact hq op (mem_keep hop)
  · intro op hop
    simp only [onDisconnection_unacked] at hop
    obtain ⟨o, ho, rfl⟩ := List.mem_map.1 (mem_keepUnacked hop)
    rw [(mark_flags o).2.2, weight_mark]
    exact h.unacked o ho

theorem stat_connection {cfg : Config} {settings : Settings} {c : Client} (h : StatInv c) (k : Control) :
    StatInv ⟨c.ops.onConnection cfg settings, k⟩ := by
  have h1 : Ledger (lostOnConnection cfg settings c.ops ++ (requeued cfg settings c.ops ++
      (c.ops.current.toList ++ c.ops.writing))) c.ops.log c.ops.stats c.ops.nextUid := h.ledger.perm (by
    refine List.perm_iff_count.2 fun x => ?_
    have q1 := List.perm_iff_count.1 (keep_lose_perm cfg.offline c.ops.unacked) x
    have q2 := List.perm_iff_count.1 (List.filter_append_perm (fun op : Op => isQos1 op.packet) c.ops.unacked) x
    unfold requeued lostOnConnection
    split <;> simp only [OpState.held, List.count_append, List.count_nil] at q1 q2 ⊢ <;> omega)
  have h2 := h1.completeAll .offlinePolicy
  have h3 := h2.changeAll false
  refine ⟨?_, ?_, by simpa using h.current, by simpa using h.writing, by simp⟩
  · simp only [OpState.held, onConnection_queued, onConnection_current, onConnection_writing, onConnection_unacked,
      onConnection_stats, onConnection_log, onConnection_nextUid, ← List.append_assoc, List.append_nil]
    have := h3.log (log' := c.ops.log ++ completions (lostOnConnection cfg settings c.ops) .offlinePolicy ++
      [.connected settings]) (pending_plain (by simp [Effect.plain]))
    rw [← List.append_assoc] at this
    exact this
  · intro op hop
    simp only [onConnection_queued] at hop
    exact changeStatsAll_unflag _ (fun o ho => h2.entry o (List.mem_append_left _ ho)) op hop

theorem stat_reset {c : Client} {k : Control} (h : StatInv c) (hc : c.ops.current = none) (e : Error) {s : OpState}
    (h1 : s.queued = []) (h2 : s.current = none) (h3 : s.writing = []) (h4 : s.unacked = [])
    (h5 : s.stats = (c.ops.resetAll e).stats) (h6 : s.nextUid = c.ops.nextUid) (h7 : s.log = (c.ops.resetAll e).log) :
    StatInv ⟨s, k⟩ := by
  refine ⟨?_, by simp [h1], by simp [h2], by simp [h3], by simp [h4]⟩
  show Ledger s.held s.log s.stats s.nextUid
  have := (h.ledger.perm (pool' := (c.ops.queued ++ c.ops.writing ++ c.ops.unacked) ++ []) (by
    refine List.perm_iff_count.2 fun x => ?_
    simp only [OpState.held, hc, Option.toList_none, List.count_append, List.count_nil]; omega)).completeAll e
  rw [show s.held = [] by simp [OpState.held, h1, h2, h3, h4], h5, h6, h7]
  simpa using this

theorem stat_move {cfg : Config} {c c' : Client} (hi : Inv c) (h : StatInv c) (m : Move cfg c c') : StatInv c' := by
  have hn := hi.held.newUid
  cases m with
  | control k hk => exact h.same rfl rfl rfl rfl rfl rfl rfl
  | accept p t hp hs hst =>
    have hl := h.ledger.accept hn (op := c.ops.newOp (withPacketId p 0) t) rfl (by simpa [OpState.newOp] using hp)
      (by simp [OpState.newOp, withPacketId_packetId]) rfl rfl rfl
    refine ⟨hl.perm ?_, ?_, h.current, h.writing, h.unacked⟩
    · refine List.perm_iff_count.2 fun x => ?_
      simp only [OpState.held, OpState.accept, List.count_append, List.count_cons, List.count_nil]; omega
    · intro o ho
      simp only [OpState.accept, List.mem_append, List.mem_singleton] at ho
      rcases ho with ho | rfl
      · exact h.queued o ho
      · unfold changeStats
        split
        · rfl
        · split <;> rfl
  | reject p e hp => exact ⟨h.ledger.reject p e, h.queued, h.current, h.writing, h.unacked⟩
  | push p hp hst =>
    have hu : isUser p = false := by
      rcases hp with rfl | hp | hp
      · rfl
      · cases p <;> simp [isConnect] at hp; rfl
      · cases p <;> simp [isDisconnect] at hp; rfl
    refine ⟨h.ledger.push hn (op := c.ops.newOp p) rfl hu rfl rfl, ?_, h.current, h.writing, h.unacked⟩
    intro o ho
    simp only [OpState.pushFront, List.mem_cons] at ho
    rcases ho with rfl | ho
    · rfl
    · exact h.queued o ho
  | publish v a hst =>
    obtain ⟨s1, ctl, hs, hl, hx⟩ := onPublish_queue c.ops v a
    have h1 : StatInv ⟨s1, c.ctl⟩ := h.sameOps hs (by rw [hl]; exact pending_plain (by simp [Effect.plain]))
    rcases hx with hx | hx
    · rw [hx]; exact h1
    · rw [hx]
      exact h1.queuePuback (by simpa [OpState.held, hs.queued, hs.current, hs.writing, hs.unacked, hs.nextUid] using hn) _
  | invoke ctl hst =>
    rcases invoke_queue c.ops ctl with ⟨id, s1, _, hs, hl, _, _, _, hx⟩ | ⟨_, hs, hl, _⟩
    · have h1 : StatInv ⟨s1, c.ctl⟩ := h.sameOps hs (by rw [hl]; exact pending_plain (by simp [Effect.plain]))
      rw [hx]
      exact h1.queuePuback (by simpa [OpState.held, hs.queued, hs.current, hs.writing, hs.unacked, hs.nextUid] using hn) _
    · exact h.sameOps hs (by rw [hl]; exact pending_plain (by simp [Effect.plain]))
  | token id hst => exact h.same rfl rfl rfl rfl rfl rfl (pending_plain (by simp [Effect.plain]))
  | invalid op rest e hq he =>
    have hl : Ledger (op :: (rest ++ (c.ops.current.toList ++ (c.ops.writing ++ c.ops.unacked)))) c.ops.log c.ops.stats
        c.ops.nextUid := by have := h.ledger; rwa [OpState.held, hq] at this
    have hq' := h.queued
    rw [hq] at hq'
    exact ⟨hl.complete e none, fun o ho => hq' o (List.mem_cons_of_mem _ ho), h.current, h.writing, h.unacked⟩
  | start op rest s ok hq hc he hst hs =>
    have hl : Ledger (op :: (rest ++ (c.ops.writing ++ c.ops.unacked))) c.ops.log c.ops.stats
        c.ops.nextUid := by
      have := h.ledger; rw [OpState.held, hq, hc] at this; simpa using this
    have hq' := h.queued
    rw [hq] at hq'
    have hrest : ∀ o ∈ rest, o.unacked = false := fun o ho => hq' o (List.mem_cons_of_mem _ ho)
    have hop := hq' op (List.mem_cons_self ..)
    rcases setCurrent_cases hs with ⟨_, p, n, enc, rfl, _⟩ | ⟨_, op', n, enc, rfl, hb, _⟩
    · refine ⟨?_, hrest, h.current, h.writing, h.unacked⟩
      simp only [OpState.held, hc, Option.toList_none, List.nil_append]
      exact (hl.drop hop).log (pending_plain (by simp [Effect.plain]))
    · have ha : Alike op op' := by
        rcases bind_cases hb with ⟨_, _, rfl⟩ | ⟨hnd, id, _, _, rfl⟩
        · exact ⟨rfl, rfl, rfl, rfl, rfl, rfl, fun _ hx => hx⟩
        · refine ⟨rfl, by simp, by simp, rfl, rfl, rfl, ?_⟩
          intro hw hz
          have hu : isUser op.packet = true := by
            simp [needsId] at hnd
            exact requiresAck_user hnd.1
          have hcon : c.ctl.state = .connected := by
            rcases hst with hst | ⟨_, hst⟩ | ⟨_, hst⟩
            · exact hst
            · cases hp : op.packet <;> rw [hp] at hst hu <;> simp [isConnect, isUser] at hst hu
            · cases hp : op.packet <;> rw [hp] at hst hu <;> simp [isDisconnect, isUser] at hst hu
          rw [weight_eq hz] at hw
          simp [Client.invalid, Control.settingsValid, hcon, hw] at he
      have h1 := (hl.replace ha).log (log' := c.ops.log ++ [Effect.started op'.uid op'.packet ((stepsBytes enc.steps).drop
        (stepsBytes c.ops.encoder.steps).length)]) (pending_plain (by simp [Effect.plain]))
      refine ⟨h1.perm ?_, hrest, ?_, h.writing, h.unacked⟩
      · refine List.perm_iff_count.2 fun x => ?_
        simp only [OpState.held, Option.toList_some, List.count_append, List.count_cons, List.count_nil]; omega
      · intro o ho
        cases ho
        rw [ha.unacked]; exact hop
  | encode op buf buf' enc r hc he => exact h.same rfl rfl rfl rfl rfl rfl rfl
  | finish op now s hc hsteps hs =>
    obtain ⟨_, ⟨hr, hid, rfl⟩ | ⟨hr, rfl⟩⟩ := finish_cases hs
    · have hl : Ledger (op :: (c.ops.queued ++ (c.ops.writing ++ c.ops.unacked))) c.ops.log c.ops.stats c.ops.nextUid :=
        h.ledger.perm (by
          refine List.perm_iff_count.2 fun x => ?_
          simp only [OpState.held, hc, Option.toList_some, List.count_append, List.count_cons, List.count_nil]; omega)
      have hl2 := hl.replace (op' := { op with deadline := ackDeadline cfg op now })
        ⟨rfl, rfl, rfl, rfl, rfl, rfl, fun _ hx => hx⟩
      have hl3 := (hl2.change true).log (log' := c.ops.log ++ [.encoded op.uid op.packet])
        (pending_plain (by simp [Effect.plain]))
      have hu := requiresAck_user hr
      have hen := hl2.entry _ (List.mem_cons_self ..)
      obtain ⟨m, hw⟩ : ∃ m, weight op.packet = some m := by
        cases hw : weight op.packet with
        | some m => exact ⟨m, rfl⟩
        | none => exact absurd (hen.unknown hu hw).2.2.2 hid
      refine ⟨hl3.perm ?_, h.queued, by simp [OpState.finishAck], h.writing, ?_⟩
      · refine List.perm_iff_count.2 fun x => ?_
        simp only [OpState.held, OpState.finishAck, Option.toList_none, List.count_append, List.count_cons, List.count_nil]
        omega
      · intro o ho
        simp only [OpState.finishAck, List.mem_append, List.mem_singleton] at ho
        rcases ho with ho | rfl
        · exact h.unacked o ho
        · rw [changeStats_known c.ops.stats hen hu hw]
          exact ⟨rfl, by simp [hw]⟩
    · have hl := h.ledger.log (log' := c.ops.log ++ [.encoded op.uid op.packet]) (pending_plain (by simp [Effect.plain]))
      refine ⟨hl.perm ?_, h.queued, by simp [OpState.finishWrite], ?_, h.unacked⟩
      · refine List.perm_iff_count.2 fun x => ?_
        simp only [OpState.held, OpState.finishWrite, hc, Option.toList_none, Option.toList_some, List.count_append,
          List.count_cons, List.count_nil]
        omega
      · intro o ho
        simp only [OpState.finishWrite, List.mem_append, List.mem_singleton] at ho
        rcases ho with ho | rfl
        · exact h.writing o ho
        · exact h.current o hc
  | write data => exact h.same rfl rfl rfl rfl rfl rfl (pending_plain (by simp [Effect.plain]))
  | pinged uid => exact h.same rfl rfl rfl rfl rfl rfl (pending_plain (by simp [Effect.plain]))
  | unwrite => exact h.same rfl rfl rfl rfl rfl rfl rfl
  | written e =>
    have hl := (h.ledger.perm (pool' := c.ops.writing ++ (c.ops.queued ++ (c.ops.current.toList ++ c.ops.unacked))) (by
      refine List.perm_iff_count.2 fun x => ?_
      simp only [OpState.held, List.count_append]; omega)).completeAll e
    rw [completeAll_eq]
    refine ⟨?_, h.queued, h.current, by simp, h.unacked⟩
    simpa [OpState.held] using hl
  | ack id uid op rest e a ht hu => exact h.remove hu
  | timeout op rest hu ht => exact h.remove hu
  | forget uid => exact h.same rfl rfl rfl rfl rfl rfl rfl
  | fresh hst => exact h.same rfl rfl rfl rfl rfl rfl rfl
  | disconnection e st hst => exact stat_disconnection h _
  | connection settings now hst => exact stat_connection h _
  | reset hst =>
    have hc := (hi.held.idle (by rcases hst with hst | hst <;> simp [hst, State.quiet])).1
    exact stat_reset h hc .userStop (by simp) (by simp [hc]) (by simp) (by simp) rfl (by simp) rfl
  | terminate hst hd =>
    have hc := (hi.held.idle (by simp [hst, State.quiet])).1
    exact stat_reset h hc .terminated (by simp) (by simp [hc]) (by simp) (by simp) rfl (by simp) rfl

theorem reachable_stat {cfg : Config} {c : Client} (h : Reachable cfg c) : Inv c ∧ StatInv c :=
  reachable_inv (P := fun c => Inv c ∧ StatInv c)
    ⟨⟨held_new cfg, live_new cfg, track_new cfg⟩, stat_new cfg⟩
    (fun _ _ ⟨hi, hf⟩ m => ⟨⟨held_move hi.held m, live_move hi.held hi.live m,
      track_move hi.held hi.live hi.track m⟩, stat_move hi hf m⟩) h

end Mqtt.Client5
