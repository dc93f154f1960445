import Verif.Lemmas.AdapterEnd

/-!
What operations are: the entry of the table against the call that made it and the MQTT 5 operation made for it.
-/
namespace Mqtt.Adapter

open Mqtt.V5 Mqtt.SubscriptionSet
open Mqtt.Client5 (Config Client LEvent Effect Fault Desired)

theorem Becomes.trans {a b c : Kind} (h : Becomes a b) (h' : Becomes b c) : Becomes a c := by
  rcases h with rfl | ⟨h1, rs, h2⟩
  · exact h'
  · rcases h' with rfl | ⟨h4, _⟩
    · exact .inr ⟨h1, rs, h2⟩
    · rw [h2] at h4; cases h4

theorem Sent.mono {k : Kind} {u : Nat} {l l' : List Effect} (h : Sent k u l) (hl : ∀ x ∈ l, x ∈ l') : Sent k u l' := by
  obtain ⟨p, q, h1, h2, h3⟩ := h
  exact ⟨p, q, h1, hl _ h2, h3⟩

theorem Told.mono {k : Kind} {r : Result} {l l' : List Effect} {log log' : List Note} (h : Told k r l log)
    (hl : ∀ x ∈ l, x ∈ l') (hn : ∀ x ∈ log, x ∈ log') : Told k r l' log' := by
  rcases h with ⟨u, p, e, ack, h1, h2, h3⟩ | h | ⟨h1, h2⟩
  · exact .inl ⟨u, p, e, ack, h1.mono hl, hl _ h2, h3⟩
  · exact .inr (.inl h)
  · exact .inr (.inr ⟨h1, hn _ h2⟩)

/-- The client's log has the packet it is given. -/
theorem submit_sent (cfg : Config) (c : Client) (p : Outgoing) :
    ∃ q, .submitted c.ops.nextUid q ∈ (c.submit cfg p 0 false).ops.log ∧
      Client5.withPacketId q 0 = Client5.withPacketId p 0 := by
  have h : Client5.withPacketId (Client5.withPacketId p 0) 0 = Client5.withPacketId p 0 := by cases p <;> rfl
  unfold Client5.Client.submit
  rw [if_neg (by decide)]
  split
  · exact ⟨p, by simp [Client5.OpState.reject], rfl⟩
  · exact ⟨Client5.withPacketId p 0, by simp [Client5.OpState.accept, Client5.OpState.newOp], h⟩

/-- An operation that was accepted, and what it has become. -/
def Asked (call id : Nat) (k' : Kind) (log : List Note) : Prop := ∃ k, .accepted call id k ∈ log ∧ Becomes k k'

theorem Asked.mono {call id : Nat} {k' : Kind} {log log' : List Note} (h : Asked call id k' log)
    (hn : ∀ x ∈ log, x ∈ log') : Asked call id k' log' := by
  obtain ⟨k, h1, h2⟩ := h
  exact ⟨k, hn _ h1, h2⟩

structure Stems (s : Sys) : Prop where
  named : ∀ id op, s.ad.table.get id = some op → Asked op.call id op.kind s.ad.log
  sent : ∀ id op u, s.ad.table.get id = some op → op.uid = some u → Sent op.kind u s.client.ops.log
  told : ∀ call id r, .finished call id r ∈ s.ad.log → ∃ k, Asked call id k s.ad.log ∧ Told k r s.client.ops.log s.ad.log

/-- Operations are only removed, and nothing is told without a reason. -/
theorem Stems.grow {s s' : Sys} (h : Stems s) (ht : ∀ id op, s'.ad.table.get id = some op → s.ad.table.get id = some op)
    {new : List Note} (hl : s'.ad.log = s.ad.log ++ new) (hc : ∀ x ∈ s.client.ops.log, x ∈ s'.client.ops.log)
    (hn : ∀ call id r, .finished call id r ∈ new → ∃ k, Asked call id k s.ad.log ∧ Told k r s'.client.ops.log s'.ad.log) :
    Stems s' := by
  have hm : ∀ x ∈ s.ad.log, x ∈ s'.ad.log := fun x hx => by rw [hl]; exact List.mem_append_left _ hx
  refine ⟨fun id op hx => (h.named id op (ht _ _ hx)).mono hm, fun id op u hx hu => (h.sent id op u (ht _ _ hx) hu).mono hc,
    fun call id r hx => ?_⟩
  rw [hl] at hx
  rcases List.mem_append.1 hx with hx | hx
  · obtain ⟨k, h1, h2⟩ := h.told _ _ _ hx
    exact ⟨k, h1.mono hm, h2.mono hc hm⟩
  · obtain ⟨k, h1, h2⟩ := hn _ _ _ hx
    exact ⟨k, h1.mono hm, h2⟩

theorem Stems.aside {s s' : Sys} (h : Stems s) (ht : s'.ad.table = s.ad.table) (hc : s'.client.ops.log = s.client.ops.log)
    (hl : ∃ new, s'.ad.log = s.ad.log ++ new ∧ ∀ n ∈ new, n.aside = true) : Stems s' := by
  obtain ⟨new, h1, h2⟩ := hl
  refine h.grow (fun id op hx => by rw [← ht]; exact hx) h1 (fun x hx => by rw [hc]; exact hx) fun call id r hx => ?_
  have := h2 _ hx
  cases this

theorem Stems.counts {s : Sys} (h : Stems s) {a : Adapter} (hc : Counts s.ad a) : Stems { s with ad := a } :=
  h.aside hc.table rfl ⟨[], by simpa using hc.log, by simp⟩

/-- The client moves. -/
theorem Stems.react {s : Sys} (h : Stems s) {c : Client} {effects : List Effect} (hl : c.ops.log = s.client.ops.log ++ effects)
    (hn : s.ad.table.Nodup) (hd : Distinct s.ad.table) : Stems (s.react c) := by
  obtain ⟨_, new, h1, h2, _⟩ := react_ops s c effects hl hn hd
  have hsub : ∀ x ∈ s.client.ops.log, x ∈ c.ops.log := fun x hx => by rw [hl]; exact List.mem_append_left _ hx
  refine h.grow (fun id op hx => (((react_table s c effects hl hn hd).2 id op).1 hx).1) h1 hsub fun call id r hx => ?_
  rcases h2 _ hx with hx | ⟨call', id', op, u, p, e, ack, h3, h4, h5, h6, h7⟩
  · cases hx
  · injection h3 with e1 e2 e3
    subst e1 e2 e3 h5
    refine ⟨op.kind, h.named _ _ h4, .inl ⟨u, p, e, ack, (h.sent _ _ _ h4 h6).mono hsub, ?_, rfl⟩⟩
    show _ ∈ c.ops.log
    rw [hl]
    exact List.mem_append_right _ h7

/-- An operation is given to the client. -/
theorem Stems.submitOp {s : Sys} (h : Stems s) (hg : Good s) {ts : List Task} {set : SubSet} {id : Nat} {op op' : AOp} {p : Outgoing}
    (hop : s.ad.table.get id = some op) (hcall : op'.call = op.call) (hb : Becomes op.kind op'.kind)
    (hp : op'.kind.packet = some p) :
    Stems (({ s with ad := { s.ad with tasks := ts, subs := set } } : Sys).submitOp id op' p) := by
  obtain ⟨_, new, hl⟩ := submit_log s.cfg s.client p
  obtain ⟨q, hq1, hq2⟩ := submit_sent s.cfg s.client p
  have get : ∀ i o, (s.ad.table.set id { op' with uid := some s.client.ops.nextUid }).get i = some o →
      i = id ∧ o = { op' with uid := some s.client.ops.nextUid } ∨ i ≠ id ∧ s.ad.table.get i = some o := by
    intro i o hx
    rw [AMap.get_set] at hx
    split at hx
    · rename_i hi; exact .inl ⟨hi, (Option.some.inj hx).symm⟩
    · rename_i hi; exact .inr ⟨hi, hx⟩
  have hd : Distinct (s.ad.table.set id { op' with uid := some s.client.ops.nextUid }) := by
    intro i1 o1 i2 o2 u h1 h2 h3 h4
    rcases get _ _ h1 with ⟨e1, rfl⟩ | ⟨_, f1⟩ <;> rcases get _ _ h2 with ⟨e2, rfl⟩ | ⟨_, f2⟩
    · rw [e1, e2]
    · cases h3
      exact absurd (hg.table.uids _ _ _ f2 h4) (Nat.lt_irrefl _)
    · cases h4
      exact absurd (hg.table.uids _ _ _ f1 h3) (Nat.lt_irrefl _)
    · exact hg.table.distinct _ _ _ _ _ f1 f2 h3 h4
  have hn : (s.ad.table.set id { op' with uid := some s.client.ops.nextUid }).Nodup := AMap.nodup_set hg.table.nodup ..
  obtain ⟨_, nn, h1, h2, _⟩ := react_ops (Sys.mk s.cfg s.client { s.ad with
    tasks := ts, subs := set, table := s.ad.table.set id { op' with uid := some s.client.ops.nextUid } })
    (s.client.submit s.cfg p 0 false) new hl hn hd
  have h3 := (react_table (Sys.mk s.cfg s.client { s.ad with
    tasks := ts, subs := set, table := s.ad.table.set id { op' with uid := some s.client.ops.nextUid } })
    (s.client.submit s.cfg p 0 false) new hl hn hd).2
  have hsub : ∀ x ∈ s.client.ops.log, x ∈ (s.client.submit s.cfg p 0 false).ops.log := fun x hx => by
    rw [hl]; exact List.mem_append_left _ hx
  have named : ∀ i o, (s.ad.table.set id { op' with uid := some s.client.ops.nextUid }).get i = some o →
      Asked o.call i o.kind s.ad.log := by
    intro i o hx
    rcases get i o hx with ⟨rfl, rfl⟩ | ⟨_, hx⟩
    · obtain ⟨k, k1, k2⟩ := h.named _ _ hop
      dsimp only
      rw [hcall]
      exact ⟨k, k1, k2.trans hb⟩
    · exact h.named i o hx
  have sent : ∀ i o u, (s.ad.table.set id { op' with uid := some s.client.ops.nextUid }).get i = some o → o.uid = some u →
      Sent o.kind u (s.client.submit s.cfg p 0 false).ops.log := by
    intro i o u hx hu
    rcases get i o hx with ⟨rfl, rfl⟩ | ⟨_, hx⟩
    · cases hu
      exact ⟨p, q, hp, hq1, hq2⟩
    · exact (h.sent i o u hx hu).mono hsub
  have hm : ∀ x ∈ s.ad.log, x ∈ s.ad.log ++ nn := fun x hx => List.mem_append_left _ hx
  unfold Sys.submitOp
  refine ⟨fun i o hx => ?_, fun i o u hx hu => sent i o u ((h3 i o).1 hx).1 hu, fun call i r hx => ?_⟩
  · rw [h1]
    exact (named i o ((h3 i o).1 hx).1).mono hm
  · rw [h1] at hx ⊢
    show ∃ k, _ ∧ Told k r (s.client.submit s.cfg p 0 false).ops.log _
    rcases List.mem_append.1 hx with hx | hx
    · obtain ⟨k, k1, k2⟩ := h.told _ _ _ hx
      exact ⟨k, k1.mono hm, k2.mono hsub hm⟩
    · rcases h2 _ hx with hx | ⟨call', id', o, u, p', e, ack, k3, k4, k5, k6, k7⟩
      · cases hx
      · injection k3 with e1 e2 e3
        subst e1 e2 e3 k5
        refine ⟨o.kind, (named _ _ k4).mono hm, .inl ⟨u, p', e, ack, sent _ _ _ k4 k6, ?_, rfl⟩⟩
        rw [hl]
        exact List.mem_append_right _ k7

theorem Stems.did {s s' : Sys} {e : Event} (h : Stems s) (hg : Good s) (he : Enabled s e) (hd : Did s e s') : Stems s' := by
  cases hd with
  | refused => exact h
  | connect o _ _ => exact h.aside rfl rfl ⟨[.connectCalled s.ad.calls], rfl, by simp [Note.aside]⟩
  | disconnect => exact h.aside rfl rfl ⟨[.disconnectCalled s.ad.calls], rfl, by simp [Note.aside]⟩
  | add _ k _ _ =>
    unfold Adapter.add
    split
    · exact h.aside rfl rfl ⟨[], by simp, by simp⟩
    · rename_i id hf
      have hm : ∀ x ∈ s.ad.log, x ∈ s.ad.log ++ [.accepted s.ad.calls id k] := fun x hx => List.mem_append_left _ hx
      have get : ∀ i o, (s.ad.table.set id { call := s.ad.calls, kind := k }).get i = some o →
          i = id ∧ o = { call := s.ad.calls, kind := k } ∨ i ≠ id ∧ s.ad.table.get i = some o := by
        intro i o hx
        rw [AMap.get_set] at hx
        split at hx
        · rename_i hi; exact .inl ⟨hi, (Option.some.inj hx).symm⟩
        · rename_i hi; exact .inr ⟨hi, hx⟩
      refine ⟨fun i o hx => ?_, fun i o u hx hu => ?_, fun call i r hx => ?_⟩
      · show Asked _ _ _ (s.ad.log ++ [.accepted s.ad.calls id k])
        rcases get i o hx with ⟨rfl, rfl⟩ | ⟨_, hx⟩
        · exact ⟨k, by simp, .inl rfl⟩
        · exact (h.named i o hx).mono hm
      · rcases get i o hx with ⟨rfl, rfl⟩ | ⟨_, hx⟩
        · cases hu
        · exact h.sent i o u hx hu
      · show ∃ k', Asked _ _ k' (s.ad.log ++ [.accepted s.ad.calls id k]) ∧
          Told k' r s.client.ops.log (s.ad.log ++ [.accepted s.ad.calls id k])
        have hx : Note.finished call i r ∈ s.ad.log ++ [.accepted s.ad.calls id k] := hx
        rcases List.mem_append.1 hx with hx | hx
        · obtain ⟨k', k1, k2⟩ := h.told _ _ _ hx
          exact ⟨k', k1.mono hm, k2.mono (fun _ hx => hx) hm⟩
        · simp at hx
  | acquire => exact h.aside rfl rfl ⟨[], by simp [Adapter.acquire], by simp⟩
  | release => exact h.counts (release_counts s.ad)
  | run t ts _ ht hrun =>
    obtain ⟨hgone, hran⟩ := runTask_ran hrun
    have h0 : Stems { s with ad := { s.ad with tasks := ts } } := ⟨h.named, h.sent, h.told⟩
    cases hran with
    | attach =>
      have h1 : Stems { s with ad := { s.ad with tasks := ts, attached := true } } := ⟨h.named, h.sent, h.told⟩
      exact h1.counts (releaseListener_counts _)
    | detach =>
      have h1 : Stems { s with ad := { s.ad with tasks := ts, attached := false } } := ⟨h.named, h.sent, h.told⟩
      exact h1.counts (releaseInternal_counts _)
    | connect j o =>
      refine Stems.counts ?_ (releaseInternal_counts _)
      generalize ({ s with ad := { s.ad with tasks := ts } } : Sys) = s0 at h0
      by_cases hst : s0.ad.state = .stayDisconnected
      · rw [connectTask_start hst]
        obtain ⟨new, h1, h2⟩ := completeDisconnect_log s0.ad
        refine h0.aside (completeDisconnect_table _) ?_ ⟨new ++ [.connecting j], ?_, ?_⟩
        · show (connectClient s0.client o).ops.log = _
          unfold connectClient
          rw [Client5.setDesired_none]
          exact congrArg (·.log) (Client5.resetConnection_soft (updateSettings s0.client o)).2.2
        · show s0.ad.completeDisconnect.log ++ [.connecting j] = _
          rw [h1, List.append_assoc]
        · intro n hn
          rcases List.mem_append.1 hn with hn | hn
          · exact h2 n hn
          · rw [List.mem_singleton.1 hn]; rfl
      · rw [connectTask_refuse hst]
        exact h0.aside rfl rfl ⟨[_], rfl, by simp [Note.aside]⟩
    | disconnect j =>
      refine Stems.counts ?_ (releaseInternal_counts _)
      generalize ({ s with ad := { s.ad with tasks := ts } } : Sys) = s0 at h0
      have hhalt : ∃ new, s0.ad.halt.log = s0.ad.log ++ new ∧ ∀ n ∈ new, n.aside = true := by
        unfold Adapter.halt
        split
        · exact completeConnect_log s0.ad .connectionShutdown
        · exact ⟨[], by simp, by simp⟩
      have htab : s0.ad.halt.table = s0.ad.table := by
        unfold Adapter.halt
        split
        · exact completeConnect_table _ _
        · rfl
      by_cases hst : s0.ad.state = .stayDisconnected
      · rw [disconnectTask_idle hst]
        exact h0.aside rfl rfl ⟨[_], rfl, by simp [Note.aside]⟩
      · by_cases hd : s0.client.ctl.desired = .stopped
        · rw [disconnectTask_stopped hst hd]
          obtain ⟨new, h1, h2⟩ := hhalt
          refine h0.aside htab rfl ⟨new ++ [.disconnectDone j, .closed], ?_, ?_⟩
          · show (s0.ad.halt.log ++ [.disconnectDone j]) ++ [.closed] = _
            rw [h1]
            simp
          · intro n hn
            rcases List.mem_append.1 hn with hn | hn
            · exact h2 n hn
            · simp at hn
              rcases hn with rfl | rfl <;> rfl
        · rw [disconnectTask_stop hst hd]
          refine h0.aside htab ?_ hhalt
          show (s0.client.setDesired .stopped none).ops.log = _
          rw [Client5.setDesired_none]
    | submit id s1 hsub =>
      refine Stems.counts ?_ (releaseInternal_counts _)
      cases hsub with
      | ended op r hop hk =>
        refine h0.grow (new := [.finished op.call id r]) (fun i o hx => ?_) rfl (fun _ hx => hx) fun call i r' hx => ?_
        · have hx : (s.ad.table.del id).get i = some o := hx
          rw [AMap.get_del] at hx
          split at hx
          · cases hx
          · exact hx
        · have hx := List.mem_singleton.1 hx
          injection hx with e1 e2 e3
          subst e1 e2 e3
          exact ⟨op.kind, h.named _ _ hop, .inr (.inl hk)⟩
      | sent op op' set p hop hcall hok hset hk =>
        exact h.submitOp hg hop hcall hk.1 hk.2
    | destroy =>
      refine h0.grow (new := s.ad.table.map (fun p => .finished p.2.call p.1 (failResult p.2.kind)) ++ [.terminated])
        (fun i o hx => ?_) ?_ (fun _ hx => hx) fun call i r hx => ?_
      · cases hx
      · show (s.ad.log ++ _) ++ _ = _
        rw [List.append_assoc]
      · rcases List.mem_append.1 hx with hx | hx
        · obtain ⟨x, h1, h2⟩ := List.mem_map.1 hx
          injection h2 with e1 e2 e3
          subst e1 e2 e3
          refine ⟨x.2.kind, h.named _ _ ((AMap.mem_iff_get hg.table.nodup).1 h1), .inr (.inr ⟨rfl, ?_⟩)⟩
          simp [Adapter.destroy, Adapter.note]
        · simp at hx
  | client e c hstep _ =>
    obtain ⟨new, h1⟩ := Client5.step_log he.1 hstep
    exact h.react h1 hg.table.nodup hg.table.distinct

theorem reachable_stems {allow : Sys → Event → Prop} {s : Sys} (h : ReachableIf allow s) : Stems s := by
  have : Good s ∧ Stems s := by
    refine reachable_induct (P := fun s => Good s ∧ Stems s) (fun cfg c hc hd => ?_)
      (fun _ _ _ hl he _ hd => ⟨hl.1.did he hd, hl.2.did hl.1 he hd⟩) h
    exact ⟨reachable_good (allow := allow) (.new hc hd), fun _ _ hx => (by cases hx), fun _ _ _ hx => (by cases hx),
      fun _ _ _ hx => (by cases hx)⟩
  exact this.2

/-! ## The end of the adapter -/

/-- Tasks to be run until the adapter is gone. -/
def remaining (a : Adapter) : Nat :=
  a.tasks.length + (if a.listener > 0 then 2 else 0) + (if a.internal > 0 then 1 else 0)

/-- Every task brings the adapter nearer to its end. -/
theorem run_nearer {s s' : Sys} (h : Refs s.ad) (hx : s.ad.external = 0) (hg : s.ad.gone = false) (hs : step s .run = .ok s') :
    remaining s'.ad < remaining s.ad ∧ s'.ad.external = 0 := by
  have hne : s.ad.tasks ≠ [] := by
    intro ht
    cases h with
    | fresh _ e => rw [e] at ht; cases ht
    | live _ _ _ e => omega
    | dying ts e => rw [e] at ht; simp at ht
    | dead e => rw [e] at ht; cases ht
    | gone _ _ e => rw [hg] at e; cases e
  obtain ⟨t, ts, ht⟩ := List.exists_cons_of_ne_nil hne
  simp only [step] at hs
  rw [ht] at hs
  dsimp only at hs
  obtain ⟨_, hran⟩ := runTask_ran hs
  cases h with
  | fresh ts' e1 e2 e3 e4 e5 e6 e7 =>
    rw [e1] at ht
    injection ht with h1 h2
    subst h1 h2
    rw [hx] at e5
    cases hran with
    | attach =>
    unfold Adapter.releaseListener
    dsimp only
    rw [if_pos (by simp at e5; omega)]
    refine ⟨?_, hx⟩
    unfold remaining
    rw [e1, e5]
    simp [Adapter.schedule, e6]
  | live e1 e2 e3 e4 => omega
  | dying ts' e1 e2 e3 e4 e5 e6 e7 =>
    cases ts' with
    | nil =>
      rw [e1] at ht
      injection ht with h1 h2
      subst h1 h2
      cases hran with
      | detach =>
      rw [releaseInternal_last (by exact e7)]
      refine ⟨?_, hx⟩
      unfold remaining
      rw [e1, e6]
      simp [Adapter.schedule, e7]
    | cons x l =>
      rw [e1] at ht
      injection ht with h1 h2
      subst h1 h2
      obtain ⟨a, hs, ha⟩ := ran_ref hran (e2 x (List.mem_cons_self ..))
      have h2 : a.internal = s.ad.internal := hs.internal
      have h3 : a.tasks = l ++ [.detach] := hs.tasks
      have h4 : a.listener = 0 := hs.listener.trans e6
      rw [List.length_cons] at e7
      rw [ha, releaseInternal_more (by omega)]
      refine ⟨?_, hs.external.trans hx⟩
      unfold remaining
      rw [e1, e6, e7]
      simp [h3, h4, h2, e7]
      rw [if_pos (by omega)]
      omega
  | dead e1 e2 e3 e4 e5 e6 =>
    rw [e1] at ht
    injection ht with h1 h2
    subst h1 h2
    cases hran with
    | destroy =>
      refine ⟨?_, hx⟩
      unfold remaining
      rw [e1]
      simp [Adapter.destroy, Adapter.failAll, Adapter.note, e5, e6]
  | gone e1 e2 e3 e4 e5 e6 => rw [e1] at ht; cases ht

/-- A call is one operation. -/
theorem accepted_unique {a : Adapter} (h : Numbered a) {i id id' : Nat} {k k' : Kind} (hc : .accepted i id k ∈ a.log)
    (hx : .accepted i id' k' ∈ a.log) : id' = id ∧ k' = k := by
  have hl := asksOperation_le h i
  unfold tally at hl
  refine Classical.byContradiction fun hne => ?_
  have hne : (Note.accepted i id' k') ≠ .accepted i id k := fun he => hne (by injection he with _ h2 h3; exact ⟨h2, h3⟩)
  obtain ⟨x, y, hab⟩ := List.append_of_mem hc
  rw [hab] at hx hl
  rw [List.countP_append, List.countP_cons_of_pos (by simp [Note.asksOperation])] at hl
  have h0 : ∀ n ∈ x ++ y, ¬ n.asksOperation i = true := by
    intro n hn hp
    rcases List.mem_append.1 hn with hn | hn
    · have := List.countP_pos_iff.2 ⟨n, hn, hp⟩; omega
    · have := List.countP_pos_iff.2 ⟨n, hn, hp⟩; omega
  rcases List.mem_append.1 hx with hx | hx
  · exact h0 _ (List.mem_append_left _ hx) (by simp [Note.asksOperation])
  · rcases List.mem_cons.1 hx with hx | hx
    · exact hne hx
    · exact h0 _ (List.mem_append_right _ hx) (by simp [Note.asksOperation])

end Mqtt.Adapter
