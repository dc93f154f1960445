import Verif.Lemmas.Client5Alarm

/-!
The service task of the MQTT 5 client completes the operations whose ack timeout has passed.
-/
namespace Mqtt.Client5

open Mqtt.V5

/-- Every operation waiting for its acknowledgement can be found by its packet id. -/
structure Indexed (s : OpState) : Prop where
  once : ∀ u, (s.unacked.map (·.uid)).count u ≤ 1
  index : ∀ op ∈ s.unacked, s.table.get (packetId op.packet) = some op.uid

theorem Indexed.resolve {s : OpState} {op : Op} {rest : List Op} (h : Indexed s)
    (ht : takeUid op.uid s.unacked = some (op, rest)) {e : Error} {a : Option Received} {l : List Nat} :
    Indexed (({ s with timeouts := l, unacked := rest, table := s.table.del (packetId op.packet) } : OpState).complete op e a) := by
  have hop : op ∈ s.unacked := by
    obtain ⟨x, y, hx, _⟩ := takeUid_split ht
    rw [hx]; simp
  have hr : ∀ o ∈ rest, o ∈ s.unacked ∧ o.uid ≠ op.uid := by
    intro o ho
    have hc := takeUid_count ht o.uid
    have h1 := h.once o.uid
    obtain ⟨x, y, hx, hy, _⟩ := takeUid_split ht
    have hm : o ∈ s.unacked := by
      rw [hx]; rw [hy] at ho
      rcases List.mem_append.1 ho with ho | ho <;> simp [ho]
    refine ⟨hm, fun hu => ?_⟩
    have : 0 < (rest.map (·.uid)).count o.uid := List.count_pos_iff.2 (List.mem_map_of_mem ho)
    rw [if_pos hu.symm] at hc
    omega
  constructor
  · intro u
    have h1 := h.once u
    have h2 := takeUid_count ht u
    change (rest.map (·.uid)).count u ≤ 1
    omega
  · intro o ho
    obtain ⟨h1, h2⟩ := hr o ho
    change (s.table.del (packetId op.packet)).get (packetId o.packet) = some o.uid
    rw [AMap.get_del]
    have h3 := h.index o h1
    rw [if_neg]
    · exact h3
    · intro he
      rw [he, h.index op hop] at h3
      exact h2 (Option.some.inj h3).symm

theorem checkTimeouts_expires {now fuel : Nat} {s s' : OpState} (h : Client5.checkTimeouts now fuel s = .ok s')
    (hi : Indexed s) (hf : s.timeouts.length ≤ fuel) :
    ∃ new, s'.log = s.log ++ new ∧ ∀ op ∈ s.unacked, op.uid ∈ s.timeouts → op.deadline ≤ now →
      .completed op.uid op.packet .timeout none ∈ new := by
  induction fuel generalizing s with
  | zero =>
    simp only [Client5.checkTimeouts] at h
    cases h
    refine ⟨[], by simp, ?_⟩
    intro op _ hu
    rw [List.length_eq_zero_iff.1 (Nat.le_zero.1 hf)] at hu
    cases hu
  | succ fuel ih =>
    have hdl : ∀ o ∈ s.unacked, deadlineOf s.unacked o.uid = o.deadline := by
      intro o ho
      unfold deadlineOf
      split
      · rename_i o' ho'
        have h2 : o'.uid = o.uid := by simpa using List.find?_some ho'
        rw [uid_unique hi.once (List.mem_of_find?_eq_some ho') ho h2]
      · rename_i hn
        have := List.find?_eq_none.1 hn o ho
        simp at this
    rw [Client5.checkTimeouts] at h
    split at h
    · rename_i hn
      cases h
      refine ⟨[], by simp, fun op hop hu hd => ?_⟩
      exfalso
      cases ht : s'.timeouts with
      | nil => rw [ht] at hu; cases hu
      | cons y us =>
        rw [ht, earliest] at hn
        split at hn
        · cases hn
        · split at hn <;> cases hn
    · rename_i uid huid
      have hmem := earliest_mem huid
      split at h
      · cases h
      · rename_i o ho
        have hou : o.uid = uid := by simpa using List.find?_some ho
        have hom := List.mem_of_find?_eq_some ho
        have hle : ∀ op ∈ s.unacked, op.uid ∈ s.timeouts → o.deadline ≤ op.deadline := by
          intro op hop hu
          have hle := earliest_le huid op.uid hu
          rwa [← hou, hdl o hom, hdl op hop] at hle
        split at h
        · rename_i hlt
          cases h
          refine ⟨[], by simp, fun op hop hu hd => ?_⟩
          have := hle op hop hu
          omega
        · simp only at h
          rw [hi.index o hom] at h
          simp only at h
          split at h
          · cases h
          · rename_i s1 hs1
            unfold OpState.resolve at hs1
            split at hs1
            · cases hs1
            · rename_i o' rest hr
              cases hs1
              have ho' : o' = o := by
                rw [takeUid_find] at ho
                simp only at hr
                rw [hr] at ho
                simpa using ho
              subst ho'
              subst hou
              have hlen : (s.timeouts.filter (· != o'.uid)).length < s.timeouts.length :=
                List.length_filter_lt_length_iff_exists.2 ⟨o'.uid, hmem, by simp⟩
              have h2 := List.length_filter_le (· != o'.uid) (s.timeouts.filter (· != o'.uid))
              obtain ⟨new, hn, hx⟩ := ih h (hi.resolve hr) (by simp only [OpState.complete]; omega)
              refine ⟨.completed o'.uid o'.packet .timeout none :: new, by simp [hn, OpState.complete], ?_⟩
              intro op hop hu hd
              by_cases hne : op.uid = o'.uid
              · have := uid_unique hi.once hop hom hne
                subst this
                simp
              · refine List.mem_cons_of_mem _ (hx op ?_ ?_ hd)
                · obtain ⟨a, b, ha, hb, _⟩ := takeUid_split hr
                  simp only at ha
                  change op ∈ rest
                  rw [ha] at hop
                  rw [hb]
                  simp only [List.mem_append, List.mem_cons] at hop ⊢
                  rcases hop with hop | hop | hop
                  · exact .inl hop
                  · rw [hop] at hne; exact absurd rfl hne
                  · exact .inr hop
                · simp only [OpState.complete, List.mem_filter, bne_iff_ne, ne_eq]
                  exact ⟨⟨hu, hne⟩, hne⟩

theorem clientTimeouts_expires {now : Nat} {c c' : Client} (h : c.checkTimeouts now = .ok c') (hi : Indexed c.ops) :
    ∃ new, c'.ops.log = c.ops.log ++ new ∧ ∀ op ∈ c.ops.unacked, op.uid ∈ c.ops.timeouts → op.deadline ≤ now →
      .completed op.uid op.packet .timeout none ∈ new := by
  unfold Client.checkTimeouts at h
  split at h
  · cases h
  · rename_i s hs
    cases h
    exact checkTimeouts_expires hs hi (Nat.le_refl _)

theorem moves_append {cfg : Config} {c c' : Client} (m : Moves cfg c c') : ∃ new, c'.ops.log = c.ops.log ++ new := by
  induction m with
  | nil => exact ⟨[], by simp⟩
  | cons m _ ih =>
    obtain ⟨n1, h1, _⟩ := move_log m
    obtain ⟨n2, h2⟩ := ih
    exact ⟨n1 ++ n2, by rw [h2, h1, List.append_assoc]⟩

/-- The service task of a connected client that does not close the connection completes what is overdue. -/
theorem service_expires {cfg : Config} {c c' : Client} {env : Env} (h : step cfg c (.service env) = .ok c')
    (hc : c.ctl.state = .connected) (hi : Indexed c.ops) (hd : c.ctl.desired = .connected)
    (hp : c.ctl.pingTimeout = 0 ∨ env.now < c.ctl.pingTimeout) :
    ∃ new, c'.ops.log = c.ops.log ++ new ∧ ∀ op ∈ c.ops.unacked, op.uid ∈ c.ops.timeouts → op.deadline ≤ env.now →
      .completed op.uid op.packet .timeout none ∈ new := by
  change c.service cfg env = .ok c' at h
  unfold Client.service at h
  rw [hc] at h
  simp only at h
  unfold Client.serviceConnected at h
  rw [if_neg (by simp [hd]), if_neg (by omega)] at h
  have key : ∀ c1 : Client, c1 = (if env.now ≥ c.ctl.nextPing then c.queuePing env.queueNow else c) →
      c1.ops.unacked = c.ops.unacked ∧ c1.ops.table = c.ops.table ∧ c1.ops.timeouts = c.ops.timeouts ∧
      ∃ new, c1.ops.log = c.ops.log ++ new := by
    intro c1 h1
    rw [h1]
    split
    · exact ⟨rfl, rfl, rfl, _, rfl⟩
    · exact ⟨rfl, rfl, rfl, [], by simp⟩
  have key := key _ rfl
  simp only at h
  generalize (if env.now ≥ c.ctl.nextPing then c.queuePing env.queueNow else c) = c1 at h key
  obtain ⟨k1, k2, k3, n0, k4⟩ := key
  split at h
  · cases h
  · rename_i c2 h2
    obtain ⟨n1, h3, h4⟩ := clientTimeouts_expires h2 ⟨by rw [k1]; exact hi.once, by rw [k1, k2]; exact hi.index⟩
    split at h
    · cases h
    · rename_i r hr
      cases h
      obtain ⟨n2, h5⟩ := moves_append (serviceOps_moves (cfg := cfg) (g := .any) hr (fun _ => trivial))
      have h6 : (Client.afterService r).1.ops.log = r.1.ops.log := by unfold Client.afterService; split <;> rfl
      refine ⟨n0 ++ n1 ++ n2, by rw [h6, h5, h3, k4]; simp, ?_⟩
      intro op hop hu hdl
      have := h4 op (k1 ▸ hop) (k3 ▸ hu) hdl
      simp [this]

end Mqtt.Client5
