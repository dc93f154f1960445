import Verif.Lemmas.AdapterClient

/-!
The callbacks of operations: the ledger, and which completion of the client each callback comes from.
-/
namespace Mqtt.Adapter

open Mqtt.V5 Mqtt.SubscriptionSet
open Mqtt.Client5 (Config Client LEvent Effect Fault Desired)

/-- Operations of call `i` in the table. -/
def entries (i : Nat) (t : AMap Nat AOp) : Nat := t.countP fun p => p.2.call == i

/-- The ledger of operations. -/
def opBal (i : Nat) (a : Adapter) : Int :=
  tally a (Note.answersOperation i) + entries i a.table - tally a (Note.asksOperation i)

theorem entries_del {t : AMap Nat AOp} (hn : t.Nodup) {id : Nat} {op : AOp} (h : t.get id = some op) (i : Nat) :
    entries i t = entries i (t.del id) + if op.call = i then 1 else 0 := by
  have := (AMap.perm_del hn h).countP_eq (fun p => p.2.call == i)
  unfold entries
  rw [this, List.countP_cons]
  simp

theorem entries_set {t : AMap Nat AOp} (id : Nat) (op : AOp) (i : Nat) :
    entries i (t.set id op) = entries i (t.del id) + if op.call = i then 1 else 0 := by
  unfold entries AMap.set
  rw [List.countP_cons]
  simp

theorem opBal_same {a a' : Adapter} {i : Nat} (h1 : a'.table = a.table) {new : List Note} (h2 : a'.log = a.log ++ new)
    (h3 : ∀ n ∈ new, n.asksOperation i = false ∧ n.answersOperation i = false) : opBal i a' = opBal i a := by
  have e1 : new.countP (Note.asksOperation i) = 0 := List.countP_eq_zero.2 fun n hn => by simp [(h3 n hn).1]
  have e2 : new.countP (Note.answersOperation i) = 0 := List.countP_eq_zero.2 fun n hn => by simp [(h3 n hn).2]
  unfold opBal tally
  rw [h1, h2, List.countP_append, List.countP_append, e1, e2]
  simp

/-- A note that is not about an operation. -/
def Note.aside : Note → Bool
  | .accepted .. => false
  | .finished .. => false
  | .terminated => false
  | _ => true

theorem Note.aside_of {n : Note} (h : n.aside = true) (i : Nat) :
    n.asksOperation i = false ∧ n.answersOperation i = false := by
  cases n <;> first | (cases h; done) | exact ⟨rfl, rfl⟩

theorem opBal_counts {a a' : Adapter} (i : Nat) (h : Counts a a') : opBal i a' = opBal i a :=
  opBal_same h.table (new := []) (by simpa using h.log) (by simp)

theorem completeConnect_log (a : Adapter) (c : Code) :
    ∃ new, (a.completeConnect c).log = a.log ++ new ∧ ∀ n ∈ new, n.aside = true := by
  unfold Adapter.completeConnect
  split
  · exact ⟨[], by simp, by simp⟩
  · exact ⟨[_], rfl, by simp [Note.aside]⟩

theorem completeDisconnect_log (a : Adapter) :
    ∃ new, a.completeDisconnect.log = a.log ++ new ∧ ∀ n ∈ new, n.aside = true := by
  unfold Adapter.completeDisconnect
  split
  · exact ⟨[], by simp, by simp⟩
  · exact ⟨[_], rfl, by simp [Note.aside]⟩

theorem completeConnect_table (a : Adapter) (c : Code) : (a.completeConnect c).table = a.table := by
  unfold Adapter.completeConnect; split <;> rfl

theorem completeDisconnect_table (a : Adapter) : a.completeDisconnect.table = a.table := by
  unfold Adapter.completeDisconnect; split <;> rfl

theorem onEvent_log (a : Adapter) (e : LEvent) :
    ∃ new, (a.onEvent e).log = a.log ++ new ∧ ∀ n ∈ new, n.aside = true := by
  have two : ∀ (n : Note) (c : Code) (st : AState), n.aside = true →
      ∃ new, ({ (a.note n).completeConnect c with state := st } : Adapter).log = a.log ++ new ∧ ∀ n ∈ new, n.aside = true := by
    intro n c st hn
    obtain ⟨new, h1, h2⟩ := completeConnect_log (a.note n) c
    refine ⟨n :: new, ?_, ?_⟩
    · show ((a.note n).completeConnect c).log = _
      rw [h1]
      show a.log ++ [n] ++ new = _
      simp
    · simpa using ⟨hn, h2⟩
  unfold Adapter.onEvent
  cases e with
  | attempting => exact ⟨[_], rfl, by simp [Note.aside]⟩
  | success =>
    dsimp only
    split
    · exact ⟨[], by simp, by simp⟩
    · exact two .connectionSuccess .ok _ rfl
    · exact ⟨[.connectionSuccess, .resumed], by simp [Adapter.note], by simp [Note.aside]⟩
  | failure e =>
    dsimp only
    split
    · exact ⟨[], by simp, by simp⟩
    · split
      · exact ⟨[], by simp, by simp⟩
      · exact two (.connectionFailure (translate e)) _ _ rfl
      · exact ⟨[_], rfl, by simp [Note.aside]⟩
  | disconnection e =>
    dsimp only
    split
    · exact ⟨[_], rfl, by simp [Note.aside]⟩
    · exact ⟨[], by simp, by simp⟩
  | stopped =>
    obtain ⟨new, h1, h2⟩ := completeDisconnect_log a
    refine ⟨new ++ [.closed], ?_, ?_⟩
    · show a.completeDisconnect.log ++ [.closed] = _
      rw [h1, List.append_assoc]
    · intro n hn
      rcases List.mem_append.1 hn with hn | hn
      · exact h2 n hn
      · rw [List.mem_singleton.1 hn]; rfl

theorem overlook_log (a : Adapter) (e : LEvent) :
    ∃ new, (a.overlook e).log = a.log ++ new ∧ ∀ n ∈ new, n.aside = true := by
  unfold Adapter.overlook
  split
  · exact ⟨[_], rfl, by simp [Note.aside]⟩
  · exact ⟨[], by simp, by simp⟩

/-- A callback of an operation and the completion it comes from. -/
def From (t : AMap Nat AOp) (effects : List Effect) (n : Note) : Prop :=
  ∃ call id op u p e ack, n = .finished call id (result op.kind e ack) ∧ t.get id = some op ∧ op.call = call ∧
    op.uid = some u ∧ .completed u p e ack ∈ effects

theorem From.mono {t t' : AMap Nat AOp} {l l' : List Effect} {n : Note} (h : From t l n)
    (ht : ∀ id op, t.get id = some op → t'.get id = some op) (hl : ∀ e ∈ l, e ∈ l') : From t' l' n := by
  obtain ⟨call, id, op, u, p, e, ack, h1, h2, h3, h4, h5⟩ := h
  exact ⟨call, id, op, u, p, e, ack, h1, ht _ _ h2, h3, h4, hl _ h5⟩

/-- One effect of the client: the ledger, and the callback. -/
theorem onEffect_ops (a : Adapter) (x : Effect) (hn : a.table.Nodup) :
    (∀ i, opBal i (a.onEffect x) = opBal i a) ∧
    ∃ new, (a.onEffect x).log = a.log ++ new ∧ (∀ n ∈ new, n.aside = true ∨ From a.table [x] n) ∧
      ∀ id op u p e ack, x = .completed u p e ack → a.table.get id = some op → op.uid = some u → Distinct a.table →
        .finished op.call id (result op.kind e ack) ∈ new := by
  have same : ∀ a' : Adapter, a'.table = a.table → (∃ new, a'.log = a.log ++ new ∧ ∀ n ∈ new, n.aside = true) →
      (∀ u p e ack, x ≠ .completed u p e ack) → (∀ i, opBal i a' = opBal i a) ∧
      ∃ new, a'.log = a.log ++ new ∧ (∀ n ∈ new, n.aside = true ∨ From a.table [x] n) ∧
        ∀ id op u p e ack, x = .completed u p e ack → a.table.get id = some op → op.uid = some u → Distinct a.table →
          .finished op.call id (result op.kind e ack) ∈ new := by
    rintro a' h1 ⟨new, h2, h3⟩ h4
    exact ⟨fun i => opBal_same h1 h2 fun n hn => Note.aside_of (h3 n hn) i, new, h2, fun n hn => .inl (h3 n hn),
      fun id op u p e ack hx => absurd hx (h4 u p e ack)⟩
  cases x with
  | completed v p e ack =>
    unfold Adapter.onEffect Adapter.onCompleted
    dsimp only
    cases hf : findUid v a.table with
    | none =>
      refine ⟨fun i => rfl, [], by simp, by simp, fun id op u p' e' ack' hx h1 h2 => ?_⟩
      cases hx
      exact absurd h2 (findUid_none hf (AMap.get_some_mem h1))
    | some y =>
      obtain ⟨id', op'⟩ := y
      obtain ⟨h1, h2⟩ := findUid_some hf
      have h1 := (AMap.mem_iff_get hn).1 h1
      refine ⟨fun i => ?_, [_], rfl, ?_, fun id op u p' e' ack' hx h3 h4 hd => ?_⟩
      · have h4 := entries_del hn h1 i
        dsimp only
        unfold Adapter.finish opBal
        rw [tally_note, tally_note]
        show ((tally a (Note.answersOperation i) + _ : Nat) : Int) + (entries i (a.table.del id')) - _ = _
        rw [h4]
        by_cases hi : op'.call = i <;> simp [Note.answersOperation, Note.asksOperation, hi, tally] <;> omega
      · intro n hn
        rw [List.mem_singleton.1 hn]
        exact .inr ⟨_, id', op', v, p, e, ack, rfl, h1, rfl, h2, by simp⟩
      · cases hx
        have := hd _ _ _ _ _ h1 h3 h2 h4
        subst this
        rw [h1] at h3
        cases h3
        simp
  | delivered v ctl =>
    refine same _ ?_ ?_ (by simp)
    · unfold Adapter.onEffect; dsimp only; split <;> rfl
    · unfold Adapter.onEffect
      dsimp only
      split
      · exact ⟨[_], rfl, by simp [Note.aside]⟩
      · exact ⟨[], by simp, by simp⟩
  | _ => exact same _ rfl ⟨[], by simp [Adapter.onEffect], by simp⟩ (by simp)

theorem fold_ops (l : List Effect) (a : Adapter) (hn : a.table.Nodup) (hd : Distinct a.table) :
    (∀ i, opBal i (l.foldl Adapter.onEffect a) = opBal i a) ∧
    ∃ new, (l.foldl Adapter.onEffect a).log = a.log ++ new ∧ (∀ n ∈ new, n.aside = true ∨ From a.table l n) ∧
      ∀ id op u, a.table.get id = some op → op.uid = some u → (∃ x ∈ l, completes u x = true) →
        ∃ p e ack, .completed u p e ack ∈ l ∧ .finished op.call id (result op.kind e ack) ∈ new := by
  induction l generalizing a with
  | nil => exact ⟨fun i => rfl, [], by simp, by simp, fun _ _ _ _ _ ⟨x, hx, _⟩ => by cases hx⟩
  | cons x l ih =>
    obtain ⟨t1, t2⟩ := onEffect_table a x hn hd
    obtain ⟨h1, n1, h2, h3, h4⟩ := onEffect_ops a x hn
    have hsub : ∀ id op, (a.onEffect x).table.get id = some op → a.table.get id = some op := fun id op h => ((t2 id op).1 h).1
    obtain ⟨k1, n2, k2, k3, k4⟩ := ih (a.onEffect x) t1 (hd.sub hsub)
    refine ⟨fun i => (k1 i).trans (h1 i), n1 ++ n2, ?_, ?_, ?_⟩
    · rw [List.foldl_cons, k2, h2, List.append_assoc]
    · intro n hm
      rcases List.mem_append.1 hm with hm | hm
      · exact (h3 n hm).imp_right fun h => h.mono (fun _ _ h => h) fun e he => by
          rw [List.mem_singleton.1 he]; exact List.mem_cons_self ..
      · exact (k3 n hm).imp_right fun h => h.mono hsub fun e he => List.mem_cons_of_mem _ he
    · intro id op u hg hu hex
      by_cases hx : completes u x = true
      · cases x with
        | completed v p e ack =>
          have : v = u := by simpa [completes] using hx
          subst this
          exact ⟨p, e, ack, List.mem_cons_self .., List.mem_append_left _ (h4 id op _ p e ack rfl hg hu hd)⟩
        | _ => cases hx
      · obtain ⟨y, hy, hy'⟩ := hex
        have hy : y ∈ l := by
          rcases List.mem_cons.1 hy with rfl | hy
          · exact absurd hy' hx
          · exact hy
        have hg' : (a.onEffect x).table.get id = some op := (t2 id op).2 ⟨hg, fun u' hu' => by
          rw [hu] at hu'
          cases hu'
          simpa using hx⟩
        obtain ⟨p, e, ack, h5, h6⟩ := k4 id op u hg' hu ⟨y, hy, hy'⟩
        exact ⟨p, e, ack, List.mem_cons_of_mem _ h5, List.mem_append_right _ h6⟩

/-- The callbacks of operations that a move of the client leads to. -/
theorem react_ops (s : Sys) (c : Client) (effects : List Effect) (hl : c.ops.log = s.client.ops.log ++ effects)
    (hn : s.ad.table.Nodup) (hd : Distinct s.ad.table) :
    (∀ i, opBal i (s.react c).ad = opBal i s.ad) ∧
    ∃ new, (s.react c).ad.log = s.ad.log ++ new ∧ (∀ n ∈ new, n.aside = true ∨ From s.ad.table effects n) ∧
      ∀ id op u, s.ad.table.get id = some op → op.uid = some u → (∃ x ∈ effects, completes u x = true) →
        ∃ p e ack, .completed u p e ack ∈ effects ∧ .finished op.call id (result op.kind e ack) ∈ new := by
  have key : ∀ (f : Adapter → LEvent → Adapter) (l : List LEvent) (a : Adapter), (∀ a x, (f a x).table = a.table) →
      (∀ a x, ∃ new, (f a x).log = a.log ++ new ∧ ∀ n ∈ new, n.aside = true) →
      (l.foldl f a).table = a.table ∧ ∃ new, (l.foldl f a).log = a.log ++ new ∧ ∀ n ∈ new, n.aside = true := by
    intro f l
    induction l with
    | nil => intro a _ _; exact ⟨rfl, [], by simp, by simp⟩
    | cons x l ih =>
      intro a hf hg
      obtain ⟨h1, n1, h2, h3⟩ := ih (f a x) hf hg
      obtain ⟨n2, h4, h5⟩ := hg a x
      refine ⟨h1.trans (hf _ _), n2 ++ n1, by rw [List.foldl_cons, h2, h4, List.append_assoc], fun n hn => ?_⟩
      exact (List.mem_append.1 hn).elim (h5 n) (h3 n)
  have ht : (∀ a e, ((if s.ad.attached then Adapter.onEvent else Adapter.overlook) a e).table = a.table) ∧
      ∀ a e, ∃ new, ((if s.ad.attached then Adapter.onEvent else Adapter.overlook) a e).log = a.log ++ new ∧
        ∀ n ∈ new, n.aside = true := by
    split
    · exact ⟨onEvent_table, onEvent_log⟩
    · exact ⟨overlook_table, overlook_log⟩
  obtain ⟨h1, n1, h2, h3⟩ := key _ (c.ctl.events.drop s.client.ctl.events.length) s.ad ht.1 ht.2
  unfold Sys.react
  rw [hl, List.drop_left]
  dsimp only
  generalize (c.ctl.events.drop s.client.ctl.events.length).foldl
    (if s.ad.attached then Adapter.onEvent else Adapter.overlook) s.ad = a at h1 h2
  rw [← h1] at hn hd
  obtain ⟨k1, n2, k2, k3, k4⟩ := fold_ops effects a hn hd
  refine ⟨fun i => (k1 i).trans (opBal_same h1 h2 fun n hn => Note.aside_of (h3 n hn) i), n1 ++ n2, ?_, ?_, ?_⟩
  · rw [k2, h2, List.append_assoc]
  · intro n hm
    rcases List.mem_append.1 hm with hm | hm
    · exact .inl (h3 n hm)
    · rw [← h1]; exact k3 n hm
  · intro id op u hg hu hex
    rw [← h1] at hg
    obtain ⟨p, e, ack, h5, h6⟩ := k4 id op u hg hu hex
    exact ⟨p, e, ack, h5, List.mem_append_right _ h6⟩

/-! ## The ledger in every state -/

theorem opBal_failAll (i : Nat) (a : Adapter) : opBal i a.failAll = opBal i a := by
  unfold Adapter.failAll opBal tally entries
  dsimp only
  rw [List.countP_append, List.countP_append, List.countP_map, List.countP_map]
  have h1 : List.countP ((Note.asksOperation i) ∘ fun p : Nat × AOp => Note.finished p.2.call p.1 (failResult p.2.kind)) a.table = 0 :=
    List.countP_eq_zero.2 fun _ _ => by simp [Note.asksOperation]
  have h2 : List.countP ((Note.answersOperation i) ∘ fun p : Nat × AOp => Note.finished p.2.call p.1 (failResult p.2.kind)) a.table =
      List.countP (fun p => p.2.call == i) a.table := rfl
  rw [h1, h2]
  simp

theorem opBal_did {s s' : Sys} {e : Event} (hg : Good s) (he : Enabled s e) (h : Did s e s') (i : Nat) :
    opBal i s'.ad = opBal i s.ad := by
  have note : ∀ (a : Adapter) (n : Note), n.aside = true → opBal i (a.note n) = opBal i a := fun a n hn =>
    opBal_same rfl (new := [n]) rfl fun m hm => by rw [List.mem_singleton.1 hm]; exact Note.aside_of hn i
  cases h with
  | refused => rfl
  | connect o _ _ => exact note _ _ rfl
  | disconnect => exact note { s.ad with internal := _, calls := _ } (.disconnectCalled s.ad.calls) rfl
  | add _ k _ _ =>
    dsimp only
    unfold Adapter.add
    split
    · rfl
    · rename_i id hf
      obtain ⟨h1, _⟩ := findFree_some hf hg.table.next
      unfold opBal
      show (tally (Adapter.note _ _) _ : Int) + _ - (tally (Adapter.note _ _) _ : Nat) = _
      rw [tally_note, tally_note]
      show ((tally s.ad _ + _ : Nat) : Int) + (entries i (s.ad.table.set id { call := s.ad.calls, kind := k }) : Nat) -
        ((tally s.ad _ + _ : Nat) : Int) = _
      rw [entries_set, AMap.del_of_get_none h1]
      by_cases hi : s.ad.calls = i <;> simp [Note.answersOperation, Note.asksOperation, hi] <;> omega
  | acquire =>
    refine opBal_same (new := []) ?_ ?_ (by simp) <;> simp [Adapter.acquire]
  | release => exact opBal_counts i (release_counts s.ad)
  | run t ts _ ht hrun =>
    obtain ⟨hgone, hran⟩ := runTask_ran hrun
    have base : opBal i ({ s.ad with tasks := ts } : Adapter) = opBal i s.ad := rfl
    cases hran with
    | attach => exact (opBal_counts i (releaseListener_counts _)).trans rfl
    | detach => exact (opBal_counts i (releaseInternal_counts _)).trans rfl
    | connect j o =>
      refine (opBal_counts i (releaseInternal_counts _)).trans ?_
      generalize hs : ({ s with ad := { s.ad with tasks := ts } } : Sys) = s0
      have hb : opBal i s0.ad = opBal i s.ad := by rw [← hs]; rfl
      rw [← hb]
      by_cases hst : s0.ad.state = .stayDisconnected
      · rw [connectTask_start hst]
        obtain ⟨new, h1, h2⟩ := completeDisconnect_log s0.ad
        refine opBal_same (new := new ++ [.connecting j]) (completeDisconnect_table _) ?_ ?_
        · show s0.ad.completeDisconnect.log ++ [.connecting j] = _
          rw [h1, List.append_assoc]
        · intro n hn
          rcases List.mem_append.1 hn with hn | hn
          · exact Note.aside_of (h2 n hn) i
          · rw [List.mem_singleton.1 hn]; exact ⟨rfl, rfl⟩
      · rw [connectTask_refuse hst]
        exact note _ _ rfl
    | disconnect j =>
      refine (opBal_counts i (releaseInternal_counts _)).trans ?_
      generalize hs : ({ s with ad := { s.ad with tasks := ts } } : Sys) = s0
      have hb : opBal i s0.ad = opBal i s.ad := by rw [← hs]; rfl
      rw [← hb]
      have hhalt : opBal i s0.ad.halt = opBal i s0.ad := by
        unfold Adapter.halt
        split
        · obtain ⟨new, h1, h2⟩ := completeConnect_log s0.ad .connectionShutdown
          exact opBal_same (completeConnect_table _ _) h1 fun n hn => Note.aside_of (h2 n hn) i
        · rfl
      by_cases hst : s0.ad.state = .stayDisconnected
      · rw [disconnectTask_idle hst]
        exact note _ _ rfl
      · by_cases hd : s0.client.ctl.desired = .stopped
        · rw [disconnectTask_stopped hst hd]
          exact (note _ _ rfl).trans ((note _ _ rfl).trans hhalt)
        · rw [disconnectTask_stop hst hd]
          exact hhalt
    | submit id s1 hsub =>
      refine (opBal_counts i (releaseInternal_counts _)).trans ?_
      cases hsub with
      | ended op r hop =>
        have hop : s.ad.table.get id = some op := hop
        have h4 := entries_del hg.table.nodup hop i
        unfold Adapter.finish opBal
        rw [tally_note, tally_note]
        show ((tally s.ad (Note.answersOperation i) + _ : Nat) : Int) + (entries i (s.ad.table.del id)) -
          ((tally s.ad _ + _ : Nat) : Int) = _
        rw [h4]
        by_cases hi : op.call = i <;> simp [Note.answersOperation, Note.asksOperation, hi] <;> omega
      | sent op op' set p hop hcall hok hset =>
        have hop : s.ad.table.get id = some op := hop
        have hset' : ∀ set', opBal i ({ s.ad with tasks := ts, subs := set, table := set' } : Adapter) =
          opBal i ({ s.ad with table := set' } : Adapter) := fun _ => rfl
        unfold Sys.submitOp
        obtain ⟨hu, new, hl⟩ := submit_log s.cfg s.client p
        refine (react_ops (Sys.mk s.cfg s.client { s.ad with
          tasks := ts, subs := set, table := s.ad.table.set id { op' with uid := some s.client.ops.nextUid } })
          (s.client.submit s.cfg p 0 false) new hl ?_ ?_).1 i |>.trans ?_
        · exact AMap.nodup_set hg.table.nodup ..
        · -- the new number is fresh
          intro i1 o1 i2 o2 u h1 h2 h3 h4
          have fresh : ∀ i' o, (s.ad.table.set id { op' with uid := some s.client.ops.nextUid }).get i' = some o →
              i' = id ∧ o.uid = some s.client.ops.nextUid ∨ i' ≠ id ∧ s.ad.table.get i' = some o := by
            intro i' o hx
            rw [AMap.get_set] at hx
            split at hx
            · rename_i hi; cases hx; exact .inl ⟨hi, rfl⟩
            · rename_i hi; exact .inr ⟨hi, hx⟩
          rcases fresh _ _ h1 with ⟨e1, f1⟩ | ⟨_, f1⟩ <;> rcases fresh _ _ h2 with ⟨e2, f2⟩ | ⟨_, f2⟩
          · rw [e1, e2]
          · rw [f1] at h3
            cases h3
            exact absurd (hg.table.uids _ _ _ f2 h4) (Nat.lt_irrefl _)
          · rw [f2] at h4
            cases h4
            exact absurd (hg.table.uids _ _ _ f1 h3) (Nat.lt_irrefl _)
          · exact hg.table.distinct _ _ _ _ _ f1 f2 h3 h4
        · have h4 := entries_del hg.table.nodup hop i
          unfold opBal
          show ((tally s.ad _ : Nat) : Int) + (entries i (s.ad.table.set id { op' with uid := some s.client.ops.nextUid }) : Nat) -
            ((tally s.ad _ : Nat) : Int) = _
          rw [entries_set, h4]
          dsimp only
          rw [hcall]
    | destroy =>
      have term : ∀ a : Adapter, opBal i (a.note .terminated) = opBal i a := fun a =>
        opBal_same rfl (new := [.terminated]) rfl fun m hm => by rw [List.mem_singleton.1 hm]; exact ⟨rfl, rfl⟩
      refine (term _).trans ?_
      have : ∀ a : Adapter, opBal i ({ a with gone := true } : Adapter) = opBal i a := fun _ => rfl
      rw [this, opBal_failAll]
      rfl
  | client e c hstep _ =>
    have key : ∀ {c c' : Client}, Client5.Moves s.cfg c c' → ∃ new, c'.ops.log = c.ops.log ++ new := by
      intro c c' m
      induction m with
      | nil => exact ⟨[], by simp⟩
      | cons m _ ih =>
        obtain ⟨n1, h1, _⟩ := Client5.move_log m
        obtain ⟨n2, h3⟩ := ih
        exact ⟨n1 ++ n2, by rw [h3, h1, List.append_assoc]⟩
    obtain ⟨new, h1⟩ := key (Client5.step_moves he.1 hstep)
    exact (react_ops s c new h1 hg.table.nodup hg.table.distinct).1 i

theorem reachable_opBal {allow : Sys → Event → Prop} {s : Sys} (h : ReachableIf allow s) (i : Nat) : opBal i s.ad = 0 := by
  have : Good s ∧ opBal i s.ad = 0 := by
    refine reachable_induct (P := fun s => Good s ∧ opBal i s.ad = 0) (fun cfg c hc hd => ?_)
      (fun _ _ _ hl he _ hd => ⟨hl.1.did he hd, (opBal_did hl.1 he hd i).trans hl.2⟩) h
    exact ⟨reachable_good (allow := allow) (.new hc hd), rfl⟩
  exact this.2

end Mqtt.Adapter
