import Verif.Lemmas.AdapterStems
import Verif.Spec.AdapterSubs

/-!
The set of subscriptions of the adapter, against the operations that it has accepted.
-/
namespace Mqtt.Adapter
open Mqtt.V5 Mqtt.SubscriptionSet Mqtt.Props
open Client5 (Client Effect LEvent)

theorem mem_submits {l : List Task} {id : Nat} : id ∈ submits l ↔ .submit id ∈ l := by
  unfold submits
  rw [List.mem_filterMap]
  constructor
  · rintro ⟨t, h1, h2⟩
    cases t <;> simp [Task.submits?] at h2
    subst h2
    exact h1
  · exact fun h => ⟨_, h, rfl⟩

/-- What the client's log gets when it is given a packet. -/
theorem submit_new (cfg : Client5.Config) (c : Client) (p : Outgoing) :
    ∃ q new, (c.submit cfg p 0 false).ops.log = c.ops.log ++ new ∧ .submitted c.ops.nextUid q ∈ new ∧
      Client5.withPacketId q 0 = Client5.withPacketId p 0 := by
  have h : Client5.withPacketId (Client5.withPacketId p 0) 0 = Client5.withPacketId p 0 := by cases p <;> rfl
  unfold Client5.Client.submit
  rw [if_neg (by decide)]
  split
  · exact ⟨p, _, rfl, List.mem_cons_self, rfl⟩
  · exact ⟨_, _, rfl, List.mem_cons_self, h⟩

/-! ## The set -/

theorem setRun_append {ops more : List SetOp} {set : SubSet} (h : setRun ops = some set) :
    setRun (ops ++ more) = more.foldlM setStep set := by
  unfold setRun at h ⊢
  rw [List.foldlM_append, h]
  rfl

theorem addAll_run {set set' : SubSet} {rs : List Request} (h : addAll set rs = some set') :
    (rs.map fun r => SetOp.add r.filter r.entry).foldlM setStep set = some set' := by
  induction rs generalizing set with
  | nil => exact h
  | cons r rs ih =>
    unfold addAll at h
    split at h
    · cases h
    · rename_i set1 h1
      rw [List.map_cons, List.foldlM_cons]
      show (SubscriptionSet.add set r.filter r.entry >>= _) = _
      rw [h1]
      exact ih h

theorem addAll_legal {set set' : SubSet} {rs : List Request} (h : addAll set rs = some set') :
    ∀ op ∈ rs.map (fun r => SetOp.add r.filter r.entry), op.Legal := by
  induction rs generalizing set with
  | nil => simp
  | cons r rs ih =>
    unfold addAll at h
    split at h
    · cases h
    · rename_i set1 h1
      intro op hop
      rcases List.mem_cons.1 hop with rfl | hop
      · unfold SubscriptionSet.add at h1
        split at h1
        · cases h1
        · rename_i hv
          exact (C08_filter _).1 (by simpa using hv)
      · exact ih h op hop

theorem setMapRun_append (ops more : List SetOp) : setMapRun (ops ++ more) = more.foldl setMapStep (setMapRun ops) := by
  unfold setMapRun
  rw [List.foldl_append]

/-- Adding what is there changes nothing. -/
theorem map_same (m : Bytes → Option Entry) (l : List (Bytes × Entry)) (h : ∀ x ∈ l, m x.1 = some x.2) :
    (l.map fun x => SetOp.add x.1 x.2).foldl setMapStep m = m := by
  induction l with
  | nil => rfl
  | cons x l ih =>
    rw [List.map_cons, List.foldl_cons]
    have : setMapStep m (.add x.1 x.2) = m := by
      funext g
      simp only [setMapStep]
      split
      · rename_i hg; rw [hg, h x (by simp)]
      · rfl
    rw [this]
    exact ih fun y hy => h y (by simp [hy])

/-- `set` is what these operations lead to. -/
structure Leads (done : List Kind) (ops : List SetOp) (set : SubSet) : Prop where
  legal : ∀ op ∈ ops, op.Legal
  run : setRun ops = some set
  map : setMapRun ops = setMapRun (done.flatMap Kind.asksSet)
  exact : .resubscribe ∉ done → ops = done.flatMap Kind.asksSet

theorem Leads.none {done : List Kind} {ops : List SetOp} {set : SubSet} (h : Leads done ops set) {k : Kind}
    (hk : k.asksSet = []) : Leads (done ++ [k]) ops set := by
  refine ⟨h.legal, h.run, ?_, fun hn => ?_⟩
  · rw [h.map, List.flatMap_append]; simp [hk]
  · rw [h.exact (fun hx => hn (by simp [hx])), List.flatMap_append]; simp [hk]

theorem Leads.after {done : List Kind} {ops : List SetOp} {set set' : SubSet} (h : Leads done ops set) {k : Kind}
    (ha : SetAfter set k set') : ∃ ops', Leads (done ++ [k]) ops' set' := by
  have known : ∀ more, k.asksSet = more → (∀ op ∈ more, op.Legal) → more.foldlM setStep set = some set' →
      Leads (done ++ [k]) (ops ++ more) set' := by
    intro more h1 h2 h3
    refine ⟨fun op hop => (List.mem_append.1 hop).elim (h.legal op) (h2 op), by rw [setRun_append h.run, h3], ?_, fun hn => ?_⟩
    · rw [List.flatMap_append, setMapRun_append, setMapRun_append, h.map]; simp [h1]
    · rw [h.exact (fun hx => hn (by simp [hx])), List.flatMap_append]; simp [h1]
  cases k with
  | publish v => cases ha; exact ⟨ops, h.none rfl⟩
  | subscribe rs v m => exact ⟨_, known _ rfl (addAll_legal ha) (addAll_run ha)⟩
  | unsubscribe f v =>
    refine ⟨_, known [.remove f] rfl (by simp [SetOp.Legal]) ?_⟩
    show (SubscriptionSet.remove set f >>= _) = _
    rw [show SubscriptionSet.remove set f = some set' from ha]
    rfl
  | resubscribe =>
    refine ⟨ops ++ ((getSubscriptions set).map Request.ofEntry).map (fun r => SetOp.add r.filter r.entry),
      fun op hop => (List.mem_append.1 hop).elim (h.legal op) (addAll_legal ha op), ?_, ?_, fun hn => absurd (by simp) hn⟩
    · rw [setRun_append h.run, addAll_run ha]
    · have : (done ++ [Kind.resubscribe]).flatMap Kind.asksSet = done.flatMap Kind.asksSet := by
        rw [List.flatMap_append]; simp [Kind.asksSet]
      rw [this, ← h.map, setMapRun_append, List.map_map]
      obtain ⟨s1, h1, _, _, h4, _⟩ := C13_lookup ops h.legal
      rw [h.run] at h1
      cases h1
      exact map_same _ _ fun x hx => (h4 x.1 x.2).1 hx

/-! ## The invariant -/

structure SubsInv (s : Sys) (done todo : List Kind) (ops : List SetOp) (set : SubSet) : Prop where
  kinds : kinds s.ad.log = done ++ todo
  waiting : (submits s.ad.tasks).map (fun id => (s.ad.table.get id).map (·.kind)) = todo.map some
  leads : Leads done ops set
  subs : s.ad.subs = if s.ad.gone then SubscriptionSet.destroy set else set

/-- What leaves the set and the operations to be submitted as they are. -/
theorem SubsInv.keep {s s' : Sys} {done todo : List Kind} {ops : List SetOp} {set : SubSet} (h : SubsInv s done todo ops set)
    (hk : Adapter.kinds s'.ad.log = Adapter.kinds s.ad.log) (ht : submits s'.ad.tasks = submits s.ad.tasks)
    (hget : ∀ id ∈ submits s.ad.tasks, (s'.ad.table.get id).map (·.kind) = (s.ad.table.get id).map (·.kind))
    (hg : s'.ad.gone = s.ad.gone) (hs : s'.ad.subs = s.ad.subs) : SubsInv s' done todo ops set := by
  refine ⟨hk.trans h.kinds, ?_, h.leads, by rw [hs, hg]; exact h.subs⟩
  rw [ht, ← h.waiting]
  exact List.map_congr_left hget

theorem kinds_append (l l' : List Note) : kinds (l ++ l') = kinds l ++ kinds l' := by
  unfold kinds
  rw [List.filterMap_append]

theorem submits_append (l l' : List Task) : submits (l ++ l') = submits l ++ submits l' := by
  unfold submits
  rw [List.filterMap_append]

theorem submits_final {l : List Task} (h : ∀ t ∈ l, t.final = true) : submits l = [] := by
  refine List.eq_nil_iff_forall_not_mem.2 fun id hid => ?_
  exact final_submit h id (mem_submits.1 hid)

theorem SubsInv.counts {s : Sys} {done todo : List Kind} {ops : List SetOp} {set : SubSet} (h : SubsInv s done todo ops set)
    {a : Adapter} (hc : Counts s.ad a) (ht : ∃ new, a.tasks = s.ad.tasks ++ new ∧ ∀ t ∈ new, t.final = true) :
    SubsInv { s with ad := a } done todo ops set := by
  obtain ⟨new, h1, h2⟩ := ht
  refine h.keep (by rw [hc.log]) ?_ (fun id _ => by rw [hc.table]) hc.gone hc.subs
  show submits a.tasks = _
  rw [h1, submits_append, submits_final h2, List.append_nil]

theorem kinds_aside {l : List Note} (h : ∀ n ∈ l, n.kind? = none) : kinds l = [] :=
  List.filterMap_eq_nil_iff.2 h

theorem aside_kind {n : Note} (h : n.aside = true) : n.kind? = none := by
  cases n <;> first | rfl | cases h

theorem react_kinds (s : Sys) (c : Client) : kinds (s.react c).ad.log = kinds s.ad.log := by
  refine react_induct (P := fun a => kinds a.log = kinds s.ad.log) s c (fun a e h => ?_) (fun a e h => ?_) (fun a e h => ?_) rfl
  · obtain ⟨new, h1, h2⟩ := onEvent_log a e
    rw [h1, kinds_append, kinds_aside fun n hn => aside_kind (h2 n hn), List.append_nil, h]
  · obtain ⟨new, h1, h2⟩ := overlook_log a e
    rw [h1, kinds_append, kinds_aside fun n hn => aside_kind (h2 n hn), List.append_nil, h]
  · generalize hx : a.onEffect e = a'
    have he := onEffect_effected a e
    rw [hx] at he
    cases he with
    | none => exact h
    | finish uid id op e ack _ =>
      show kinds (a.log ++ [_]) = _
      rw [kinds_append, h]
      exact List.append_nil _
    | publish v =>
      show kinds (a.log ++ [_]) = _
      rw [kinds_append, h]
      exact List.append_nil _

theorem SubsInv.react {s : Sys} {done todo : List Kind} {ops : List SetOp} {set : SubSet} (h : SubsInv s done todo ops set)
    {c : Client} {effects : List Effect} (hl : c.ops.log = s.client.ops.log ++ effects) (hn : s.ad.table.Nodup)
    (hd : Distinct s.ad.table) (hq : ∀ id ∈ submits s.ad.tasks, ∃ op, s.ad.table.get id = some op ∧ op.uid = none) :
    SubsInv (s.react c) done todo ops set := by
  have hs := react_same s c
  have ht := (react_table s c effects hl hn hd).2
  refine h.keep (react_kinds s c) (by rw [hs.tasks]) (fun id hid => ?_) hs.gone hs.subs
  obtain ⟨op, h1, h2⟩ := hq id hid
  rw [h1, (ht id op).2 ⟨h1, fun u hu => by rw [h2] at hu; cases hu⟩]

/-- Some operations accepted have been submitted and have led to the set; the others are to be submitted. -/
def Follow (s : Sys) : Prop := ∃ done todo ops set, SubsInv s done todo ops set

theorem submits_once {s : Sys} (h : TableInv s) {id : Nat} {ts : List Task} (ht : s.ad.tasks = .submit id :: ts) :
    id ∉ submits ts := by
  intro hx
  have := h.once id
  rw [ht, List.count_cons_self] at this
  have h2 := List.count_pos_iff.2 (mem_submits.1 hx)
  omega

/-- An operation has been submitted. -/
theorem SubsInv.pop {s : Sys} {done todo : List Kind} {ops : List SetOp} {set : SubSet} (h : SubsInv s done todo ops set)
    {id : Nat} {ts : List Task} (ht : s.ad.tasks = .submit id :: ts) {op : AOp} (hop : s.ad.table.get id = some op) :
    ∃ todo', todo = op.kind :: todo' ∧
      (submits ts).map (fun id => (s.ad.table.get id).map (·.kind)) = todo'.map some := by
  have hw := h.waiting
  rw [ht] at hw
  have e : submits (.submit id :: ts) = id :: submits ts := rfl
  rw [e, List.map_cons, hop] at hw
  cases todo with
  | nil => cases hw
  | cons k todo' =>
    simp only [List.map_cons, Option.map_some, List.cons.injEq, Option.some.injEq] at hw
    exact ⟨todo', by rw [hw.1], hw.2⟩

theorem follow_did {s s' : Sys} {e : Event} (h : Follow s) (hg : Good s) (he : Enabled s e) (hd : Did s e s') : Follow s' := by
  obtain ⟨done, todo, ops, set, h⟩ := h
  have hq : ∀ id ∈ submits s.ad.tasks, ∃ op, s.ad.table.get id = some op ∧ op.uid = none := fun id hid =>
    (hg.table.queued id).1 (mem_submits.1 hid)
  have same : ∀ {s' : Sys} {new : List Note}, s'.ad.log = s.ad.log ++ new → (∀ n ∈ new, n.kind? = none) →
      submits s'.ad.tasks = submits s.ad.tasks → s'.ad.table = s.ad.table → s'.ad.gone = s.ad.gone → s'.ad.subs = s.ad.subs →
      SubsInv s' done todo ops set := by
    intro s' new h1 h2 h3 h4 h5 h6
    refine h.keep ?_ h3 (fun id _ => by rw [h4]) h5 h6
    rw [h1, kinds_append, kinds_aside h2, List.append_nil]
  cases hd with
  | refused => exact ⟨_, _, _, _, h⟩
  | connect o _ _ =>
    refine ⟨_, _, _, _, same (new := [.connectCalled s.ad.calls]) rfl (by simp [Note.kind?]) ?_ rfl rfl rfl⟩
    show submits (s.ad.tasks ++ [_]) = _
    rw [submits_append]
    exact List.append_nil _
  | disconnect =>
    refine ⟨_, _, _, _, same (new := [.disconnectCalled s.ad.calls]) rfl (by simp [Note.kind?]) ?_ rfl rfl rfl⟩
    show submits (s.ad.tasks ++ [_]) = _
    rw [submits_append]
    exact List.append_nil _
  | add _ k _ _ =>
    unfold Adapter.add
    split
    · exact ⟨_, _, _, _, same (new := []) (by simp) (by simp) rfl rfl rfl rfl⟩
    · rename_i id hf
      have hfree := (findFree_some hf hg.table.next).1
      refine ⟨done, todo ++ [k], ops, set, ?_, ?_, h.leads, h.subs⟩
      · show kinds (s.ad.log ++ [.accepted s.ad.calls id k]) = _
        rw [kinds_append, h.kinds, List.append_assoc]
        rfl
      · show (submits (s.ad.tasks ++ [.submit id])).map
          (fun i => ((s.ad.table.set id { call := s.ad.calls, kind := k }).get i).map (·.kind)) = _
        rw [submits_append, List.map_append, List.map_append, ← h.waiting]
        congr 1
        · refine List.map_congr_left fun i hi => ?_
          obtain ⟨op, h1, _⟩ := hq i hi
          have hne : i ≠ id := by
            rintro rfl
            rw [hfree] at h1
            cases h1
          rw [AMap.get_set, if_neg hne]
        · show [((s.ad.table.set id { call := s.ad.calls, kind := k }).get id).map (·.kind)] = [some k]
          rw [AMap.get_set_same]
          rfl
  | acquire => exact ⟨_, _, _, _, same (new := []) (by simp [Adapter.acquire]) (by simp) rfl rfl rfl rfl⟩
  | release => exact ⟨_, _, _, _, h.counts (release_counts s.ad) (release_tasks s.ad)⟩
  | run t ts _ ht hrun =>
    obtain ⟨hgone, hran⟩ := runTask_ran hrun
    have hgone : s.ad.gone = false := hgone
    have popped : t.submits? = none → SubsInv { s with ad := { s.ad with tasks := ts } } done todo ops set := by
      intro hn
      refine same (new := []) (by simp) (by simp) ?_ rfl rfl rfl
      rw [ht]
      show submits ts = (t :: ts).filterMap _
      rw [List.filterMap_cons, hn]
      rfl
    cases hran with
    | attach =>
      have h1 : SubsInv { s with ad := { s.ad with tasks := ts, attached := true } } done todo ops set :=
        (popped rfl).keep rfl rfl (fun _ _ => rfl) rfl rfl
      exact ⟨_, _, _, _, h1.counts (releaseListener_counts _) (releaseListener_tasks _)⟩
    | detach =>
      have h1 : SubsInv { s with ad := { s.ad with tasks := ts, attached := false } } done todo ops set :=
        (popped rfl).keep rfl rfl (fun _ _ => rfl) rfl rfl
      exact ⟨_, _, _, _, h1.counts (releaseInternal_counts _) (releaseInternal_tasks _)⟩
    | connect j o =>
      refine ⟨done, todo, ops, set, SubsInv.counts ?_ (releaseInternal_counts _) (releaseInternal_tasks _)⟩
      have h0 := popped rfl
      generalize ({ s with ad := { s.ad with tasks := ts } } : Sys) = s0 at h0
      by_cases hst : s0.ad.state = .stayDisconnected
      · rw [connectTask_start hst]
        obtain ⟨new, h1, h2⟩ := completeDisconnect_log s0.ad
        have hp : s0.ad.completeDisconnect.tasks = s0.ad.tasks ∧ s0.ad.completeDisconnect.gone = s0.ad.gone ∧
            s0.ad.completeDisconnect.subs = s0.ad.subs := by
          unfold Adapter.completeDisconnect
          split <;> exact ⟨rfl, rfl, rfl⟩
        refine h0.keep ?_ (congrArg submits hp.1) (fun id _ => ?_) hp.2.1 hp.2.2
        · show kinds (s0.ad.completeDisconnect.log ++ [.connecting j]) = _
          rw [kinds_append, h1, kinds_append, kinds_aside fun n hn => aside_kind (h2 n hn), List.append_nil]
          exact List.append_nil _
        · show (s0.ad.completeDisconnect.table.get id).map _ = _
          rw [completeDisconnect_table]
      · rw [connectTask_refuse hst]
        refine h0.keep ?_ rfl (fun _ _ => rfl) rfl rfl
        show kinds (s0.ad.log ++ [_]) = _
        rw [kinds_append]
        exact List.append_nil _
    | disconnect j =>
      refine ⟨done, todo, ops, set, SubsInv.counts ?_ (releaseInternal_counts _) (releaseInternal_tasks _)⟩
      have h0 := popped rfl
      generalize ({ s with ad := { s.ad with tasks := ts } } : Sys) = s0 at h0
      have hhalt : ∃ new, s0.ad.halt.log = s0.ad.log ++ new ∧ ∀ n ∈ new, n.aside = true := by
        unfold Adapter.halt
        split
        · exact completeConnect_log s0.ad .connectionShutdown
        · exact ⟨[], by simp, by simp⟩
      have hp : s0.ad.halt.tasks = s0.ad.tasks ∧ s0.ad.halt.gone = s0.ad.gone ∧ s0.ad.halt.subs = s0.ad.subs ∧
          s0.ad.halt.table = s0.ad.table := by
        unfold Adapter.halt Adapter.completeConnect
        split <;> (try split) <;> exact ⟨rfl, rfl, rfl, rfl⟩
      obtain ⟨new, h1, h2⟩ := hhalt
      have hk : kinds s0.ad.halt.log = kinds s0.ad.log := by
        rw [h1, kinds_append, kinds_aside fun n hn => aside_kind (h2 n hn), List.append_nil]
      by_cases hst : s0.ad.state = .stayDisconnected
      · rw [disconnectTask_idle hst]
        refine h0.keep ?_ rfl (fun _ _ => rfl) rfl rfl
        show kinds (s0.ad.log ++ [_]) = _
        rw [kinds_append]
        exact List.append_nil _
      · by_cases hd : s0.client.ctl.desired = .stopped
        · rw [disconnectTask_stopped hst hd]
          refine h0.keep ?_ (congrArg submits hp.1) (fun id _ => ?_) hp.2.1 hp.2.2.1
          · show kinds ((s0.ad.halt.log ++ [.disconnectDone j]) ++ [.closed]) = _
            rw [kinds_append, kinds_append, hk]
            exact (List.append_nil _).trans (List.append_nil _)
          · show (s0.ad.halt.table.get id).map _ = _
            rw [hp.2.2.2]
        · rw [disconnectTask_stop hst hd]
          refine h0.keep hk (congrArg submits hp.1) (fun id _ => ?_) hp.2.1 hp.2.2.1
          show (s0.ad.halt.table.get id).map _ = _
          rw [hp.2.2.2]
    | submit id s1 hsub =>
      have honce := submits_once hg.table ht
      have hset : s.ad.subs = set := by
        have := h.subs
        rw [hgone] at this
        exact this
      cases hsub with
      | ended op r hop hk =>
        obtain ⟨todo', h1, h2⟩ := h.pop ht hop
        have : SubsInv { s with ad := ({ s.ad with tasks := ts } : Adapter).finish id op r } (done ++ [op.kind]) todo' ops set := by
          refine ⟨?_, ?_, h.leads.none (by rw [hk.1]; rfl), h.subs⟩
          · show kinds (s.ad.log ++ [_]) = _
            rw [kinds_append, h.kinds, h1]
            simp [kinds, Note.kind?]
          · rw [← h2]
            refine List.map_congr_left fun i hi => ?_
            show ((s.ad.table.del id).get i).map _ = _
            rw [AMap.get_del, if_neg (fun hx : i = id => honce (hx ▸ hi))]
        exact ⟨_, _, _, _, this.counts (releaseInternal_counts _) (releaseInternal_tasks _)⟩
      | sent op op' set' p hop hcall hok _ hk haft =>
        obtain ⟨todo', h1, h2⟩ := h.pop ht hop
        obtain ⟨ops', hl⟩ := h.leads.after (by rw [← hset]; exact haft)
        obtain ⟨_, new, hlog⟩ := submit_log s.cfg s.client p
        have get : ∀ i o, (s.ad.table.set id { op' with uid := some s.client.ops.nextUid }).get i = some o →
            i = id ∧ o = { op' with uid := some s.client.ops.nextUid } ∨ i ≠ id ∧ s.ad.table.get i = some o := by
          intro i o hx
          rw [AMap.get_set] at hx
          split at hx
          · rename_i hi; exact .inl ⟨hi, (Option.some.inj hx).symm⟩
          · rename_i hi; exact .inr ⟨hi, hx⟩
        have hd : Distinct (s.ad.table.set id { op' with uid := some s.client.ops.nextUid }) := by
          intro i1 o1 i2 o2 u h1 h2 h3 h4
          rcases get _ _ h1 with ⟨e1, rfl⟩ | ⟨_, f1⟩ <;> rcases get _ _ h2 with ⟨e2, rfl⟩ | ⟨_, f2⟩
          · rw [e1, e2]
          · cases h3
            exact absurd (hg.table.uids _ _ _ f2 h4) (Nat.lt_irrefl _)
          · cases h4
            exact absurd (hg.table.uids _ _ _ f1 h3) (Nat.lt_irrefl _)
          · exact hg.table.distinct _ _ _ _ _ f1 f2 h3 h4
        have hn : (s.ad.table.set id { op' with uid := some s.client.ops.nextUid }).Nodup := AMap.nodup_set hg.table.nodup ..
        have hi : ∀ i ∈ submits ts, i ≠ id := fun i hi hx => honce (hx ▸ hi)
        have key : SubsInv (Sys.mk s.cfg s.client { s.ad with
            tasks := ts, subs := set', table := s.ad.table.set id { op' with uid := some s.client.ops.nextUid } })
            (done ++ [op.kind]) todo' ops' set' := by
          refine ⟨?_, ?_, hl, ?_⟩
          · show kinds s.ad.log = _
            rw [h.kinds, h1, List.append_assoc]
            rfl
          · rw [← h2]
            refine List.map_congr_left fun i hid => ?_
            show ((s.ad.table.set id _).get i).map _ = _
            rw [AMap.get_set, if_neg (hi i hid)]
          · show set' = if s.ad.gone then _ else _
            rw [hgone]
            rfl
        have := key.react hlog hn hd fun i hid => by
          obtain ⟨o, k1, k2⟩ := hq i (by rw [ht]; exact List.mem_cons_of_mem _ hid)
          refine ⟨o, ?_, k2⟩
          show (s.ad.table.set id _).get i = _
          rw [AMap.get_set, if_neg (hi i hid), k1]
        exact ⟨_, _, _, _, this.counts (releaseInternal_counts _) (releaseInternal_tasks _)⟩
    | destroy =>
      have hset : s.ad.subs = set := by
        have := h.subs
        rw [hgone] at this
        exact this
      have hts : submits ts = [] := by
        cases hg.refs with
        | fresh _ e => rw [e] at ht; cases ht
        | live e => exact absurd (e .destroy (by rw [ht]; simp)) (by simp [Task.isRef])
        | dying l e e' =>
          rw [e] at ht
          have hx : Task.destroy ∈ l ++ [.detach] := by rw [ht]; simp
          rcases List.mem_append.1 hx with hx | hx
          · exact absurd (e' _ hx) (by simp [Task.isRef])
          · simp at hx
        | dead e => rw [e] at ht; cases ht; rfl
        | gone _ _ e => rw [hgone] at e; cases e
      have h0 := popped rfl
      refine ⟨done, todo, ops, set, ?_, ?_, h.leads, ?_⟩
      · show kinds ((s.ad.log ++ _) ++ [_]) = _
        rw [kinds_append, kinds_append, ← h.kinds]
        have e1 : kinds (s.ad.table.map fun p => Note.finished p.2.call p.1 (failResult p.2.kind)) = [] := kinds_aside (by
          intro n hn
          obtain ⟨p, _, rfl⟩ := List.mem_map.1 hn
          rfl)
        show (kinds s.ad.log ++ kinds (s.ad.table.map fun p => Note.finished p.2.call p.1 (failResult p.2.kind))) ++ [] = _
        rw [e1]
        simp
      · have := h0.waiting
        show (submits ts).map _ = _
        rw [show submits ts = [] from hts] at this ⊢
        exact this
      · show SubscriptionSet.destroy s.ad.subs = _
        rw [hset]
        rfl
  | client e c hstep _ =>
    obtain ⟨new, h1⟩ := Client5.step_log he.1 hstep
    exact ⟨_, _, _, _, h.react h1 hg.table.nodup hg.table.distinct hq⟩

/-! ## Publishes that arrive -/

/-- The log grows; this is so for every publish that is handed on. -/
def Adds (P : PublishView → List (Nat × Option Nat) → Prop) (l l' : List Note) : Prop :=
  ∃ new, l' = l ++ new ∧ ∀ v hs, .published v hs ∈ new → P v hs

/-- Handlers are called according to this set. -/
def By (set : SubSet) (b : Bool) (v : PublishView) (hs : List (Nat × Option Nat)) : Prop := hs = handlersFor set v.topic ∧ b = true

theorem Adds.refl (P) (l : List Note) : Adds P l l := ⟨[], by simp, by simp⟩

theorem Adds.trans {P} {l1 l2 l3 : List Note} (h : Adds P l1 l2) (h' : Adds P l2 l3) : Adds P l1 l3 := by
  obtain ⟨n1, h1, h2⟩ := h
  obtain ⟨n2, h3, h4⟩ := h'
  refine ⟨n1 ++ n2, by rw [h3, h1, List.append_assoc], fun v hs hn => ?_⟩
  rcases List.mem_append.1 hn with hn | hn
  · exact h2 v hs hn
  · exact h4 v hs hn

theorem Adds.one {P} (l : List Note) (n : Note) (h : ∀ v hs, n = .published v hs → P v hs) :
    Adds P l (l ++ [n]) := ⟨[n], rfl, fun v hs hx => h v hs (List.mem_singleton.1 hx).symm⟩

theorem completeConnect_adds (P) (a : Adapter) (c : Code) : Adds P a.log (a.completeConnect c).log := by
  unfold Adapter.completeConnect
  split
  · exact .refl _ _
  · exact .one _ _ (fun _ _ h => by cases h)

theorem completeDisconnect_adds (P) (a : Adapter) : Adds P a.log a.completeDisconnect.log := by
  unfold Adapter.completeDisconnect
  split
  · exact .refl _ _
  · exact .one _ _ (fun _ _ h => by cases h)

theorem onEvent_adds (P) (a : Adapter) (e : LEvent) : Adds P a.log (a.onEvent e).log := by
  unfold Adapter.onEvent
  cases e with
  | attempting => exact .one _ _ (fun _ _ h => by cases h)
  | success =>
    dsimp only
    split
    · exact .refl _ _
    · exact (Adds.one _ .connectionSuccess (fun _ _ h => by cases h)).trans (completeConnect_adds P (a.note _) _)
    · exact (Adds.one _ .connectionSuccess (fun _ _ h => by cases h)).trans (.one _ _ (fun _ _ h => by cases h))
  | failure e =>
    dsimp only
    split
    · exact .refl _ _
    · split
      · exact .refl _ _
      · exact (Adds.one _ (.connectionFailure _) (fun _ _ h => by cases h)).trans (completeConnect_adds P (a.note _) _)
      · exact .one _ _ (fun _ _ h => by cases h)
  | disconnection e =>
    dsimp only
    split
    · exact .one _ _ (fun _ _ h => by cases h)
    · exact .refl _ _
  | stopped => exact (completeDisconnect_adds P a).trans (.one _ _ (fun _ _ h => by cases h))

theorem react_adds (s : Sys) (c : Client) : Adds (By s.ad.subs s.ad.attached) s.ad.log (s.react c).ad.log := by
  have : ((s.react c).ad.subs = s.ad.subs ∧ (s.react c).ad.attached = s.ad.attached) ∧
      Adds (By s.ad.subs s.ad.attached) s.ad.log (s.react c).ad.log := by
    refine react_induct (P := fun a => (a.subs = s.ad.subs ∧ a.attached = s.ad.attached) ∧
        Adds (By s.ad.subs s.ad.attached) s.ad.log a.log) s c
      (fun a e h => ?_) (fun a e h => ?_) (fun a e h => ?_) ⟨⟨rfl, rfl⟩, .refl _ _⟩
    · refine ⟨?_, h.2.trans (onEvent_adds _ a e)⟩
      rw [← h.1.1, ← h.1.2]
      exact ⟨(onEvent_same a e).subs, (onEvent_same a e).attached⟩
    · refine ⟨?_, h.2.trans ?_⟩
      · rw [← h.1.1, ← h.1.2]; exact ⟨(overlook_same a e).subs, (overlook_same a e).attached⟩
      · cases e with
        | attempting => exact .one _ _ (fun _ _ h => by cases h)
        | _ => exact .refl _ _
    · unfold Adapter.onEffect
      split
      · unfold Adapter.onCompleted
        split
        · exact h
        · exact ⟨h.1, h.2.trans (.one _ _ (fun _ _ h => by cases h))⟩
      · split
        · rename_i v _ _ hatt
          refine ⟨h.1, h.2.trans (.one _ _ fun v' hs hx => ?_)⟩
          injection hx with h1 h2
          subst h1
          refine ⟨?_, h.1.2 ▸ hatt⟩
          rw [← h2, h.1.1]
          rfl
        · exact h
      · exact h
  exact this.2

theorem published_did {s s' : Sys} {e : Event} (hd : Did s e s') : Adds (By s'.ad.subs (!s'.ad.gone)) s.ad.log s'.ad.log := by
  cases hd with
  | refused => exact .refl _ _
  | connect o _ _ => exact .one _ _ (fun _ _ h => by cases h)
  | disconnect => exact .one _ _ (fun _ _ h => by cases h)
  | add _ k _ _ =>
    unfold Adapter.add
    split
    · exact .refl _ _
    · exact .one _ _ (fun _ _ h => by cases h)
  | acquire => exact .refl _ _
  | release =>
    show Adds _ s.ad.log s.ad.release.log
    rw [(release_counts s.ad).log]
    exact .refl _ _
  | run t ts _ ht hrun =>
    obtain ⟨hgone, hran⟩ := runTask_ran hrun
    have hgone : s.ad.gone = false := hgone
    cases hran with
    | attach => dsimp only; rw [(releaseListener_counts _).log]; exact .refl _ _
    | detach => dsimp only; rw [(releaseInternal_counts _).log]; exact .refl _ _
    | connect j o =>
      dsimp only
      rw [(releaseInternal_counts _).log]
      have key : ∀ (s0 : Sys) P, Adds P s0.ad.log (s0.connectTask j o).ad.log := by
        intro s0 P
        by_cases hst : s0.ad.state = .stayDisconnected
        · rw [connectTask_start hst]
          exact (completeDisconnect_adds P s0.ad).trans (.one _ _ (fun _ _ h => by cases h))
        · rw [connectTask_refuse hst]
          exact .one _ _ (fun _ _ h => by cases h)
      exact key _ _
    | disconnect j =>
      dsimp only
      rw [(releaseInternal_counts _).log]
      have key : ∀ (s0 : Sys) P, Adds P s0.ad.log (s0.disconnectTask j).ad.log := by
        intro s0 P
        have hh : Adds P s0.ad.log s0.ad.halt.log := by
          unfold Adapter.halt
          split
          · exact completeConnect_adds P s0.ad _
          · exact .refl _ _
        by_cases hst : s0.ad.state = .stayDisconnected
        · rw [disconnectTask_idle hst]
          exact .one _ _ (fun _ _ h => by cases h)
        · by_cases hd : s0.client.ctl.desired = .stopped
          · rw [disconnectTask_stopped hst hd]
            exact (hh.trans (.one _ (.disconnectDone j) (fun _ _ h => by cases h))).trans (.one _ .closed (fun _ _ h => by cases h))
          · rw [disconnectTask_stop hst hd]
            exact hh
      exact key _ _
    | submit id s1 hsub =>
      dsimp only
      rw [(releaseInternal_counts _).log, (releaseInternal_counts _).subs, (releaseInternal_counts _).gone]
      cases hsub with
      | ended op r _ => exact .one _ _ (fun _ _ h => by cases h)
      | sent op op' set p _ _ _ _ =>
        unfold Sys.submitOp
        have := react_adds (Sys.mk s.cfg s.client { s.ad with
          tasks := ts, subs := set, table := s.ad.table.set id { op' with uid := some s.client.ops.nextUid } })
          (s.client.submit s.cfg p 0 false)
        have h2 := react_same (Sys.mk s.cfg s.client { s.ad with
          tasks := ts, subs := set, table := s.ad.table.set id { op' with uid := some s.client.ops.nextUid } })
          (s.client.submit s.cfg p 0 false)
        obtain ⟨new, k1, k2⟩ := this
        refine ⟨new, k1, fun v hs hx => ?_⟩
        rw [h2.subs, h2.gone]
        exact ⟨(k2 v hs hx).1, by show (!s.ad.gone) = true; rw [hgone]; rfl⟩
    | destroy =>
      have : Adds (By (SubscriptionSet.destroy s.ad.subs) false) s.ad.log (s.ad.log ++ s.ad.table.map fun p => .finished p.2.call p.1 (failResult p.2.kind)) := by
        refine ⟨_, rfl, fun v hs hx => ?_⟩
        obtain ⟨p, _, h⟩ := List.mem_map.1 hx
        cases h
      exact this.trans (.one _ _ (fun _ _ h => by cases h))
  | client e c _ hng =>
    rw [(react_same s c).subs, (react_same s c).gone]
    obtain ⟨new, k1, k2⟩ := react_adds s c
    refine ⟨new, k1, fun v hs hx => ⟨(k2 v hs hx).1, ?_⟩⟩
    cases hg : s.ad.gone with
    | false => rfl
    | true => exact absurd ⟨(k2 v hs hx).2, hg⟩ hng

theorem reachable_follow {allow : Sys → Event → Prop} {s : Sys} (h : ReachableIf allow s) : Follow s := by
  have : Good s ∧ Follow s := by
    refine reachable_induct (P := fun s => Good s ∧ Follow s) (fun cfg c hc hd => ?_)
      (fun _ _ _ hl he _ hd => ⟨hl.1.did he hd, follow_did hl.2 hl.1 he hd⟩) h
    exact ⟨reachable_good (allow := allow) (.new hc hd), [], [], [], SubSet.new, rfl, rfl, ⟨by simp, rfl, rfl, fun _ => rfl⟩, rfl⟩
  exact this.2

end Mqtt.Adapter
