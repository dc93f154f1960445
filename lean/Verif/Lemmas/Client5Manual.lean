import Verif.Lemmas.Client5Log
import Verif.Lemmas.Client5Live
import Verif.Lemmas.Client5Track

/-!
Acknowledgements of incoming publishes: what the moves of the MQTT 5 client do to the tables of manual
acknowledgements, to PUBACK operations and to the log.
-/
namespace Mqtt.Client5

open Mqtt.V5

/-! ## Entries of a log and what comes before them -/

/-- Every entry stands in this relation to the log before it. -/
def Each (P : List Effect → Effect → Prop) (log : List Effect) : Prop := ∀ a x b, log = a ++ x :: b → P a x

theorem Each.nil (P : List Effect → Effect → Prop) : Each P [] := by
  intro a x b h
  have := congrArg List.length h
  simp at this

theorem Each.append {P : List Effect → Effect → Prop} {log new : List Effect} (h : Each P log)
    (hn : ∀ a x b, new = a ++ x :: b → P (log ++ a) x) : Each P (log ++ new) := by
  intro a x b hab
  rcases List.append_eq_append_iff.1 hab with ⟨m, h1, h2⟩ | ⟨m, h1, h2⟩
  · rw [h1]; exact hn m x b h2
  · cases m with
    | nil => simp only [List.nil_append] at h2; simp only [List.append_nil] at h1
             rw [← h1]
             have := hn [] x b (by rw [← h2]; rfl)
             simpa using this
    | cons y m =>
      simp only [List.cons_append, List.cons.injEq] at h2
      exact h a x m (by rw [h1, h2.1])

/-- New entries of no interest. -/
theorem Each.boring {P : List Effect → Effect → Prop} {log new : List Effect} {f : Effect → Bool} (h : Each P log)
    (hn : ∀ e ∈ new, f e = false) (hf : ∀ a x, f x = false → P a x) : Each P (log ++ new) :=
  h.append fun a x b hx => hf _ _ (hn x (by rw [hx]; simp))

/-! ## The tables -/

/-- About acknowledgements of incoming publishes. -/
def Effect.manual : Effect → Bool
  | .delivered _ _ => true
  | .invoked _ _ => true
  | .pubackQueued _ _ => true
  | .disconnected => true
  | _ => false

def SameManual (s s' : OpState) : Prop :=
  s'.manualIds = s.manualIds ∧ s'.manualCtl = s.manualCtl ∧ s'.nextCtl = s.nextCtl

/-- The tables are emptied. -/
def Cleared (s s' : OpState) : Prop :=
  s'.manualCtl = [] ∧ (s'.manualIds = [] ∨ s.manualCtl = [] ∧ s'.manualIds = s.manualIds) ∧ s'.nextCtl = s.nextCtl

/-- What a move does. -/
inductive Manual (s s' : OpState) (new : List Effect) : Prop where
  | other : (∀ e ∈ new, e.manual = false) → SameManual s s' → Manual s s' new
  | cleared : (∀ e ∈ new, e.manual = false) → Cleared s s' → Manual s s' new
  | lost (done : List Effect) : (∀ e ∈ done, e.manual = false) → new = done ++ [.disconnected] → Cleared s s' →
      Manual s s' new
  | plain (v : PublishView) : v.qos = 0 → new = [.delivered v none] → SameManual s s' → Manual s s' new
  | auto (v : PublishView) : v.qos ≠ 0 → s.manualIds.get v.packetId = none →
      new = [.delivered v none, .pubackQueued s.nextUid v.packetId] → SameManual s s' → Manual s s' new
  | held (v : PublishView) (ctl : Nat) : v.qos ≠ 0 → s.manualIds.get v.packetId = some ctl →
      new = [.delivered v none] → SameManual s s' → Manual s s' new
  | again (v : PublishView) (ctl : Nat) : v.qos ≠ 0 → s.manualIds.get v.packetId = some ctl →
      new = [.delivered v (some ctl)] → SameManual s s' → Manual s s' new
  | acquired (v : PublishView) : v.qos ≠ 0 → s.manualIds.get v.packetId = none →
      new = [.delivered v (some s.nextCtl)] → s'.manualIds = s.manualIds.set v.packetId s.nextCtl →
      s'.manualCtl = s.manualCtl.set s.nextCtl v.packetId → s'.nextCtl = s.nextCtl + 1 → Manual s s' new
  | invoked (ctl id : Nat) : s.manualCtl.get ctl = some id →
      new = [.invoked ctl (some id), .pubackQueued s.nextUid id] →
      s'.manualIds = s.manualIds.del id → s'.manualCtl = s.manualCtl.del ctl → s'.nextCtl = s.nextCtl → Manual s s' new
  | refused (ctl : Nat) : s.manualCtl.get ctl = none → new = [.invoked ctl none] → SameManual s s' → Manual s s' new

theorem resetManual_cleared (s : OpState) : Cleared s s.resetManual := by
  unfold OpState.resetManual
  split
  · exact ⟨rfl, .inl rfl, rfl⟩
  · rename_i h
    have : s.manualCtl = [] := List.length_eq_zero_iff.1 (by omega)
    exact ⟨this, .inr ⟨this, rfl⟩, rfl⟩

theorem cleared_congr {s t s' : OpState} (h : Cleared t s') (h1 : t.manualCtl = s.manualCtl)
    (h2 : t.manualIds = s.manualIds) (h3 : t.nextCtl = s.nextCtl) : Cleared s s' :=
  ⟨h.1, by rw [← h1, ← h2]; exact h.2.1, h.2.2.trans h3⟩

theorem completions_manual (ops : List Op) (e : Error) : ∀ x ∈ completions ops e, x.manual = false := by
  intro x hx
  simp only [completions, List.mem_map] at hx
  obtain ⟨_, _, rfl⟩ := hx
  rfl

theorem publish_manual (s : OpState) (v : PublishView) (a : Bool) :
    ∃ new, (s.onPublish v a).log = s.log ++ new ∧ Manual s (s.onPublish v a) new := by
  unfold OpState.onPublish
  split
  · rename_i hq
    exact ⟨_, rfl, .plain v hq rfl ⟨rfl, rfl, rfl⟩⟩
  · rename_i hq
    cases a with
    | false =>
      simp only [Bool.false_eq_true, if_false]
      split
      · rename_i h
        obtain ⟨ctl, hc⟩ := Option.isSome_iff_exists.1 h
        exact ⟨_, rfl, .held v ctl hq hc rfl ⟨rfl, rfl, rfl⟩⟩
      · rename_i h
        exact ⟨_, by simp [OpState.queuePuback], .auto v hq (by simpa using h) rfl ⟨rfl, rfl, rfl⟩⟩
    | true =>
      simp only [if_true]
      unfold OpState.acquire
      cases hg : s.manualIds.get v.packetId with
      | some ctl =>
        simp only [hg, Option.isSome_some, if_true]
        exact ⟨_, rfl, .again v ctl hq hg rfl ⟨rfl, rfl, rfl⟩⟩
      | none =>
        simp only [AMap.get_set_same, Option.isSome_some, if_true]
        exact ⟨_, rfl, .acquired v hq hg rfl rfl rfl rfl⟩

theorem move_manual {cfg : Config} {c c' : Client} (m : Move cfg c c') :
    ∃ new, c'.ops.log = c.ops.log ++ new ∧ Manual c.ops c'.ops new := by
  have same : ∀ {s : OpState}, s.log = c.ops.log → SameManual c.ops s →
      ∃ new, s.log = c.ops.log ++ new ∧ Manual c.ops s new :=
    fun h1 h2 => ⟨[], by simp [h1], .other (by simp) h2⟩
  cases m with
  | control k hk => exact same rfl ⟨rfl, rfl, rfl⟩
  | accept p t hp hs hst => exact ⟨[_], rfl, .other (by simp [Effect.manual]) ⟨rfl, rfl, rfl⟩⟩
  | reject p e hp => exact ⟨_, rfl, .other (by simp [Effect.manual]) ⟨rfl, rfl, rfl⟩⟩
  | push p hp hst => exact same rfl ⟨rfl, rfl, rfl⟩
  | publish v a hst => exact publish_manual ..
  | invoke ctl hst =>
    rcases invoke_queue c.ops ctl with ⟨id, s1, h1, hs, hl, a1, a2, a3, hx⟩ | ⟨h1, hs, hl, a1, a2, a3⟩
    · refine ⟨_, ?_, .invoked ctl id h1 rfl ?_ ?_ ?_⟩
      · dsimp only
        rw [hx]
        simp [OpState.queuePuback, hl, hs.nextUid]
      · dsimp only; rw [hx]; exact a1
      · dsimp only; rw [hx]; exact a2
      · dsimp only; rw [hx]; exact a3
    · exact ⟨_, hl, .refused ctl h1 rfl ⟨a1, a2, a3⟩⟩
  | token id hst => exact ⟨[_], rfl, .other (by simp [Effect.manual]) ⟨rfl, rfl, rfl⟩⟩
  | invalid op rest e hq he => exact ⟨[_], rfl, .other (by simp [Effect.manual]) ⟨rfl, rfl, rfl⟩⟩
  | start op rest s ok hq hc he hst hs =>
    rcases setCurrent_cases hs with ⟨_, p, n, enc, rfl, _⟩ | ⟨_, op', n, enc, rfl, hb, _⟩
    · exact ⟨[_], rfl, .other (by simp [Effect.manual]) ⟨rfl, rfl, rfl⟩⟩
    · exact ⟨[_], rfl, .other (by simp [Effect.manual]) ⟨rfl, rfl, rfl⟩⟩
  | encode op buf buf' enc r hc he => exact same rfl ⟨rfl, rfl, rfl⟩
  | finish op now s hc hsteps hs =>
    obtain ⟨_, ⟨_, _, rfl⟩ | ⟨_, rfl⟩⟩ := finish_cases hs
    · exact ⟨[_], rfl, .other (by simp [Effect.manual]) ⟨rfl, rfl, rfl⟩⟩
    · exact ⟨[_], rfl, .other (by simp [Effect.manual]) ⟨rfl, rfl, rfl⟩⟩
  | write data => exact ⟨[_], rfl, .other (by simp [Effect.manual]) ⟨rfl, rfl, rfl⟩⟩
  | pinged uid => exact ⟨[_], rfl, .other (by simp [Effect.manual]) ⟨rfl, rfl, rfl⟩⟩
  | unwrite => exact same rfl ⟨rfl, rfl, rfl⟩
  | written e =>
    rw [completeAll_eq]
    exact ⟨_, rfl, .other (completions_manual _ _) ⟨rfl, rfl, rfl⟩⟩
  | ack id uid op rest e a ht hu => exact ⟨[_], rfl, .other (by simp [Effect.manual]) ⟨rfl, rfl, rfl⟩⟩
  | timeout op rest hu ht => exact ⟨[_], rfl, .other (by simp [Effect.manual]) ⟨rfl, rfl, rfl⟩⟩
  | forget uid => exact same rfl ⟨rfl, rfl, rfl⟩
  | fresh hq => exact same rfl ⟨rfl, rfl, rfl⟩
  | disconnection e st hst =>
    refine ⟨_, onDisconnection_log cfg c.ops, .lost _ (completions_manual _ _) rfl ?_⟩
    unfold OpState.onDisconnection
    simp only [completeAll_eq]
    exact cleared_congr (resetManual_cleared _) rfl rfl rfl
  | connection settings now hst =>
    simp only [Client.toConnected]
    refine ⟨_, onConnection_log cfg settings c.ops, .other ?_ ⟨by simp, by simp, by simp⟩⟩
    intro x hx
    rcases List.mem_append.1 hx with hx | hx
    · exact completions_manual _ _ x hx
    · rw [List.mem_singleton.1 hx]; rfl
  | reset hst =>
    simp only [Client.toStopped]
    refine ⟨_, resetAll_log c.ops .userStop, .cleared (completions_manual _ _) ?_⟩
    unfold OpState.resetAll
    simp only [completeAll_eq]
    exact cleared_congr (resetManual_cleared _) rfl rfl rfl
  | terminate hst hd =>
    simp only [Client.toTerminated]
    refine ⟨_, resetAll_log c.ops .terminated, .cleared (completions_manual _ _) ⟨rfl, .inl rfl, ?_⟩⟩
    unfold OpState.resetAll
    simp only [completeAll_eq]
    exact (resetManual_cleared _).2.2

/-- The user has taken over the acknowledgement for packet identifier `id` under control number `ctl` on the present
connection, and not invoked it. -/
def Outstanding (log : List Effect) (ctl id : Nat) : Prop :=
  ∃ a v b, log = a ++ .delivered v (some ctl) :: b ∧ v.packetId = id ∧ .disconnected ∉ b ∧ ∀ x, .invoked ctl x ∉ b

theorem Outstanding.append {log new : List Effect} {ctl id : Nat} (h : Outstanding log ctl id)
    (h1 : .disconnected ∉ new) (h2 : ∀ x, .invoked ctl x ∉ new) : Outstanding (log ++ new) ctl id := by
  obtain ⟨a, v, b, rfl, h3, h4, h5⟩ := h
  refine ⟨a, v, b ++ new, by simp, h3, by simp [h4, h1], fun x => by simp [h5 x, h2 x]⟩

structure ManualInv (c : Client) : Prop where
  forth : ∀ id ctl, c.ops.manualIds.get id = some ctl → c.ops.manualCtl.get ctl = some id
  back : ∀ id ctl, c.ops.manualCtl.get ctl = some id → c.ops.manualIds.get id = some ctl
  out : ∀ id ctl, c.ops.manualCtl.get ctl = some id → Outstanding c.ops.log ctl id
  bound : ∀ v ctl, .delivered v (some ctl) ∈ c.ops.log → ctl < c.ops.nextCtl
  used : ∀ ctl id, .invoked ctl (some id) ∈ c.ops.log → ctl < c.ops.nextCtl ∧ c.ops.manualCtl.get ctl = none

theorem not_manual {new : List Effect} (h : ∀ e ∈ new, e.manual = false) {e : Effect} (he : e.manual = true) :
    e ∉ new := fun hm => by rw [h e hm] at he; cases he

theorem manual_move {cfg : Config} {c c' : Client} (h : ManualInv c) (m : Move cfg c c') : ManualInv c' := by
  obtain ⟨new, hl, hm⟩ := move_manual m
  have hlt : ∀ ctl id, c.ops.manualCtl.get ctl = some id → ctl < c.ops.nextCtl := by
    intro ctl id hg
    obtain ⟨a, v, b, hx, _⟩ := h.out _ _ hg
    exact h.bound v ctl (by rw [hx]; simp)
  have keep : SameManual c.ops c'.ops → (.disconnected ∉ new) → (∀ ctl x, .invoked ctl x ∈ new → x = none ∧ c.ops.manualCtl.get ctl = none) →
      (∀ v ctl, .delivered v (some ctl) ∈ new → ctl < c.ops.nextCtl) → ManualInv c' := by
    intro ⟨s1, s2, s3⟩ h1 h2 h3
    refine ⟨by rw [s1, s2]; exact h.forth, by rw [s1, s2]; exact h.back, ?_, ?_, ?_⟩
    · intro id ctl hg
      rw [s2] at hg
      rw [hl]
      exact (h.out _ _ hg).append h1 fun x hx => by rw [(h2 _ _ hx).2] at hg; cases hg
    · intro v ctl hx
      rw [hl] at hx
      rw [s3]
      rcases List.mem_append.1 hx with hx | hx
      · exact h.bound _ _ hx
      · exact h3 _ _ hx
    · intro ctl id hx
      rw [hl] at hx
      rw [s2, s3]
      rcases List.mem_append.1 hx with hx | hx
      · exact h.used _ _ hx
      · cases (h2 _ _ hx).1
  have clear : Cleared c.ops c'.ops → (∀ ctl x, .invoked ctl x ∉ new) → (∀ v ctl, .delivered v (some ctl) ∉ new) →
      ManualInv c' := by
    intro ⟨s1, s2, s3⟩ h1 h2
    refine ⟨?_, by rw [s1]; simp, by rw [s1]; simp, ?_, ?_⟩
    · intro id ctl hg
      exfalso
      rcases s2 with s2 | ⟨s2, s4⟩
      · rw [s2] at hg; cases hg
      · rw [s4] at hg
        have := h.forth _ _ hg
        rw [s2] at this; cases this
    · intro v ctl hx
      rw [hl] at hx
      rw [s3]
      rcases List.mem_append.1 hx with hx | hx
      · exact h.bound _ _ hx
      · exact absurd hx (h2 _ _)
    · intro ctl id hx
      rw [hl] at hx
      rw [s1, s3]
      rcases List.mem_append.1 hx with hx | hx
      · exact ⟨(h.used _ _ hx).1, rfl⟩
      · exact absurd hx (h1 _ _)
  cases hm with
  | other h1 h2 =>
    exact keep h2 (not_manual h1 rfl) (fun ctl x hx => absurd hx (not_manual h1 rfl))
      (fun v ctl hx => absurd hx (not_manual h1 rfl))
  | cleared h1 h2 => exact clear h2 (fun ctl x hx => not_manual h1 rfl hx) (fun v ctl hx => not_manual h1 rfl hx)
  | lost done h1 h2 h3 =>
    subst h2
    refine clear h3 (fun ctl x hx => ?_) (fun v ctl hx => ?_)
    · rcases List.mem_append.1 hx with hx | hx
      · exact not_manual h1 rfl hx
      · simp at hx
    · rcases List.mem_append.1 hx with hx | hx
      · exact not_manual h1 rfl hx
      · simp at hx
  | plain v _ h2 h3 => subst h2; exact keep h3 (by simp) (by simp) (by simp)
  | auto v _ _ h2 h3 => subst h2; exact keep h3 (by simp) (by simp) (by simp)
  | held v ctl _ _ h2 h3 => subst h2; exact keep h3 (by simp) (by simp) (by simp)
  | again v ctl _ hg h2 h3 =>
    subst h2
    refine keep h3 (by simp) (by simp) (fun v' ctl' hx => ?_)
    simp at hx
    rw [hx.2]
    exact hlt _ _ (h.forth _ _ hg)
  | acquired v _ hg h2 s1 s2 s3 =>
    subst h2
    refine ⟨?_, ?_, ?_, ?_, ?_⟩
    · intro id ctl hx
      rw [s1, AMap.get_set] at hx
      rw [s2, AMap.get_set]
      split at hx
      · cases hx; rename_i he; simp [he]
      · have := h.forth _ _ hx
        have := hlt _ _ this
        rw [if_neg (by omega)]
        assumption
    · intro id ctl hx
      rw [s2, AMap.get_set] at hx
      rw [s1, AMap.get_set]
      split at hx
      · cases hx; rename_i he; simp [he]
      · have := h.back _ _ hx
        rw [if_neg (fun he => by rw [he, hg] at this; cases this)]
        exact this
    · intro id ctl hx
      rw [s2, AMap.get_set] at hx
      rw [hl]
      split at hx
      · rename_i he
        cases hx
        subst he
        exact ⟨_, v, [], rfl, rfl, by simp, by simp⟩
      · exact (h.out _ _ hx).append (by simp) (by simp)
    · intro w ctl hx
      rw [hl] at hx
      rw [s3]
      rcases List.mem_append.1 hx with hx | hx
      · have := h.bound _ _ hx; omega
      · simp at hx; omega
    · intro ctl id hx
      rw [hl] at hx
      rw [s2, s3, AMap.get_set]
      rcases List.mem_append.1 hx with hx | hx
      · obtain ⟨h1, h2⟩ := h.used _ _ hx
        rw [if_neg (by omega)]
        exact ⟨by omega, h2⟩
      · simp at hx
  | invoked ctl id hg h2 s1 s2 s3 =>
    subst h2
    refine ⟨?_, ?_, ?_, ?_, ?_⟩
    · intro id' ctl' hx
      rw [s1, AMap.get_del] at hx
      rw [s2, AMap.get_del]
      split at hx
      · cases hx
      · rename_i hne
        have := h.forth _ _ hx
        rw [if_neg (fun he => by rw [he, hg] at this; exact hne (Option.some.inj this).symm)]
        exact this
    · intro id' ctl' hx
      rw [s2, AMap.get_del] at hx
      rw [s1, AMap.get_del]
      split at hx
      · cases hx
      · rename_i hne
        have := h.back _ _ hx
        rw [if_neg (fun he => by rw [he, h.back _ _ hg] at this; exact hne (Option.some.inj this).symm)]
        exact this
    · intro id' ctl' hx
      rw [s2, AMap.get_del] at hx
      rw [hl]
      split at hx
      · cases hx
      · rename_i hne
        refine (h.out _ _ hx).append (by simp) (fun x hm => ?_)
        simp at hm
        exact hne hm.1
    · intro w ctl' hx
      rw [hl] at hx
      rw [s3]
      rcases List.mem_append.1 hx with hx | hx
      · exact h.bound _ _ hx
      · simp at hx
    · intro ctl' id' hx
      rw [hl] at hx
      rw [s2, s3, AMap.get_del]
      rcases List.mem_append.1 hx with hx | hx
      · obtain ⟨h1, h2⟩ := h.used _ _ hx
        refine ⟨h1, ?_⟩
        split
        · rfl
        · exact h2
      · simp at hx
        rw [hx.1]
        exact ⟨hlt _ _ hg, by simp⟩
  | refused ctl hg h2 h3 =>
    subst h2
    refine keep h3 (by simp) (fun ctl' x hx => ?_) (by simp)
    simp at hx
    rw [hx.1]
    exact ⟨hx.2, hg⟩

theorem manual_new (cfg : Config) : ManualInv (Client.new cfg) := by
  constructor <;> simp [Client.new]

/-! ## PUBACK operations -/

/-- The operations that are still to be encoded. -/
def OpState.waiting (s : OpState) : List Op := s.queued ++ s.current.toList

/-- A PUBACK is queued and neither encoded yet nor lost with its connection. -/
def Pend (log : List Effect) (u id : Nat) : Prop :=
  ∃ a b, log = a ++ .pubackQueued u id :: b ∧ .disconnected ∉ b ∧ ∀ p, .encoded u p ∉ b

theorem Pend.append {log new : List Effect} {u id : Nat} (h : Pend log u id) (h1 : .disconnected ∉ new)
    (h2 : ∀ p, .encoded u p ∉ new) : Pend (log ++ new) u id := by
  obtain ⟨a, b, rfl, h3, h4⟩ := h
  exact ⟨a, b ++ new, by simp, by simp [h3, h1], fun p => by simp [h4 p, h2 p]⟩

/-- What a move does to PUBACK operations. -/
structure Pubacks (s s' : OpState) (new : List Effect) : Prop where
  log : s'.log = s.log ++ new
  next : s.nextUid ≤ s'.nextUid
  wait : ∀ op ∈ s'.waiting, ∀ v, op.packet = .puback v →
    ((∃ o ∈ s.waiting, o.uid = op.uid ∧ o.packet = .puback v) ∧ .disconnected ∉ new ∧ ∀ p, .encoded op.uid p ∉ new) ∨
    ∃ n, new = n ++ [.pubackQueued op.uid v.packetId]
  sent : ∀ a x b, new = a ++ x :: b → ∀ u v, x = .encoded u (.puback v) →
    a = [] ∧ ∃ o ∈ s.waiting, o.uid = u ∧ o.packet = .puback v
  queue : ∀ a x b, new = a ++ x :: b → ∀ u id, x = .pubackQueued u id →
    u = s.nextUid ∧ s.nextUid < s'.nextUid ∧ ∀ id', .pubackQueued u id' ∉ a

def Effect.puback : Effect → Bool
  | .pubackQueued _ _ => true
  | .encoded _ _ => true
  | .disconnected => true
  | _ => false

theorem Pubacks.boring {s s' : OpState} {new : List Effect} (h1 : s'.log = s.log ++ new)
    (h2 : ∀ e ∈ new, e.puback = false) (h3 : s.nextUid ≤ s'.nextUid)
    (h4 : ∀ op ∈ s'.waiting, ∀ v, op.packet = .puback v → ∃ o ∈ s.waiting, o.uid = op.uid ∧ o.packet = .puback v) :
    Pubacks s s' new where
  log := h1
  next := h3
  wait := fun op ho v hv => .inl ⟨h4 op ho v hv, fun hm => by simpa [Effect.puback] using h2 _ hm,
    fun p hm => by simpa [Effect.puback] using h2 _ hm⟩
  sent := by
    intro a x b hx u v he
    subst he
    simpa [Effect.puback] using h2 (.encoded u (.puback v)) (by rw [hx]; simp)
  queue := by
    intro a x b hx u id he
    subst he
    simpa [Effect.puback] using h2 (.pubackQueued u id) (by rw [hx]; simp)

theorem completions_puback (ops : List Op) (e : Error) : ∀ x ∈ completions ops e, x.puback = false := by
  intro x hx
  simp only [completions, List.mem_map] at hx
  obtain ⟨_, _, rfl⟩ := hx
  rfl

theorem queuePuback_pubacks {s s1 : OpState} {x : Effect} {id : Nat} (hs : SameOps s s1)
    (hl : s1.log = s.log ++ [x]) (hx : x.puback = false) :
    Pubacks s (s1.queuePuback id) [x, .pubackQueued s1.nextUid id] where
  log := by simp [OpState.queuePuback, hl]
  next := by simp only [OpState.queuePuback, hs.nextUid]; omega
  wait := by
    intro op ho v hv
    obtain ⟨y, z, h1, h2, _⟩ := insertPuback_split (s1.newOp (.puback { packetId := id })) s1.queued
    simp only [OpState.waiting, OpState.queuePuback, h2, List.mem_append, List.mem_cons] at ho
    have old : op ∈ s.waiting → (∃ o ∈ s.waiting, o.uid = op.uid ∧ o.packet = .puback v) ∧
        .disconnected ∉ [x, .pubackQueued s1.nextUid id] ∧ ∀ p, .encoded op.uid p ∉ [x, .pubackQueued s1.nextUid id] := by
      intro hm
      refine ⟨⟨op, hm, rfl, hv⟩, ?_, fun p => ?_⟩
      · simp; rintro rfl; cases hx
      · simp; rintro rfl; cases hx
    have hw : s.waiting = y ++ z ++ s1.current.toList := by
      rw [OpState.waiting, ← hs.queued, ← hs.current, h1]
    rcases ho with (ho | rfl | ho) | ho
    · exact .inl (old (by simp [hw, ho]))
    · right
      simp only [OpState.newOp, Outgoing.puback.injEq] at hv ⊢
      subst hv
      exact ⟨[x], rfl⟩
    · exact .inl (old (by simp [hw, ho]))
    · exact .inl (old (by rw [hw]; exact List.mem_append_right _ ho))
  sent := by
    intro a y b hy u v he
    subst he
    have : Effect.encoded u (.puback v) ∈ [x, .pubackQueued s1.nextUid id] := by rw [hy]; simp
    simp at this
    subst this
    cases hx
  queue := by
    intro a y b hy u i he
    subst he
    have : Effect.pubackQueued u i ∈ [x, .pubackQueued s1.nextUid id] := by rw [hy]; simp
    simp at this
    rcases this with rfl | this
    · cases hx
    · refine ⟨by rw [this.1, hs.nextUid], by simp [OpState.queuePuback, hs.nextUid], fun id' hm => ?_⟩
      cases a with
      | nil => cases hm
      | cons z a =>
        simp only [List.cons_append, List.cons.injEq] at hy
        obtain ⟨rfl, hy⟩ := hy
        cases a with
        | nil => simp at hm; subst hm; cases hx
        | cons w a => have := congrArg List.length hy.symm; simp at this

theorem move_pubacks {cfg : Config} {c c' : Client} (hi : HeldInv c) (ha : LiveInv c) (m : Move cfg c c') :
    ∃ new, Pubacks c.ops c'.ops new := by
  have old : ∀ {s : OpState} {new : List Effect}, s.log = c.ops.log ++ new → (∀ e ∈ new, e.puback = false) →
      c.ops.nextUid ≤ s.nextUid → (∀ op ∈ s.waiting, op ∈ c.ops.waiting) → ∃ new, Pubacks c.ops s new :=
    fun h1 h2 h3 h4 => ⟨_, .boring h1 h2 h3 fun op ho v hv => ⟨op, h4 op ho, rfl, hv⟩⟩
  have nil : ∀ e ∈ ([] : List Effect), e.puback = false := by simp
  cases m with
  | control k hk => exact old (new := []) (by simp) nil (Nat.le_refl _) (fun _ => id)
  | accept p t hp hs hst =>
    refine ⟨_, .boring rfl (by simp [Effect.puback]) (by simp [OpState.accept]) ?_⟩
    intro op ho v hv
    simp only [OpState.waiting, OpState.accept, List.append_assoc, List.mem_append, List.mem_singleton] at ho
    rcases ho with ho | rfl | ho
    · exact ⟨op, by simp [OpState.waiting, ho], rfl, hv⟩
    · have : isUser (withPacketId p 0) = true := by
        cases p <;> simp only [Enabled.Submittable] at hs <;> rfl
      simp only [changeStats_packet, OpState.newOp] at hv
      rw [hv] at this
      cases this
    · exact ⟨op, List.mem_append_right _ ho, rfl, hv⟩
  | reject p e hp => exact old rfl (by simp [Effect.puback]) (by simp [OpState.reject]) (fun _ => id)
  | push p hp hst =>
    refine ⟨[], .boring (by simp [OpState.pushFront]) nil (by simp [OpState.pushFront]) ?_⟩
    intro op ho v hv
    simp only [OpState.waiting, OpState.pushFront, List.cons_append, List.mem_cons] at ho
    rcases ho with rfl | ho
    · simp only [OpState.newOp] at hv
      subst hv
      simp [isConnect, isDisconnect] at hp
    · exact ⟨op, ho, rfl, hv⟩
  | publish v a hst =>
    obtain ⟨s1, ctl, hs, hl, hx⟩ := onPublish_queue c.ops v a
    rcases hx with hx | hx
    · rw [hx]
      exact old hl (by simp [Effect.puback]) (by rw [hs.nextUid]; exact Nat.le_refl _)
        (by intro op ho; simpa only [OpState.waiting, hs.queued, hs.current] using ho)
    · rw [hx]
      exact ⟨_, queuePuback_pubacks hs hl rfl⟩
  | invoke ctl hst =>
    rcases invoke_queue c.ops ctl with ⟨id, s1, _, hs, hl, _, _, _, hx⟩ | ⟨_, hs, hl, _⟩
    · dsimp only
      rw [hx]
      exact ⟨_, queuePuback_pubacks hs hl rfl⟩
    · exact old hl (by simp [Effect.puback]) (by dsimp only; rw [hs.nextUid]; exact Nat.le_refl _)
        (by intro op ho; simpa only [OpState.waiting, hs.queued, hs.current] using ho)
  | token id hst => exact old rfl (by simp [Effect.puback]) (Nat.le_refl _) (fun _ => _root_.id)
  | invalid op rest e hq he =>
    refine old rfl (by simp [Effect.puback]) (Nat.le_refl _) fun o ho => ?_
    simp only [OpState.waiting, hq, List.cons_append]
    exact List.mem_cons_of_mem _ ho
  | start op rest s ok hq hc he hst hs =>
    rcases setCurrent_cases hs with ⟨_, p, n, enc, rfl, _⟩ | ⟨_, op', n, enc, rfl, hb, _⟩
    · refine old rfl (by simp [Effect.puback]) (Nat.le_refl _) fun o ho => ?_
      simp only [OpState.waiting, hq, List.cons_append]
      exact List.mem_cons_of_mem _ ho
    · refine ⟨_, .boring rfl (by simp [Effect.puback]) (Nat.le_refl _) ?_⟩
      intro o ho v hv
      simp only [OpState.waiting, Option.toList_some, List.mem_append, List.mem_singleton] at ho
      rcases ho with ho | rfl
      · exact ⟨o, by simp [OpState.waiting, hq, ho], rfl, hv⟩
      · refine ⟨op, by simp [OpState.waiting, hq], (bind_uid hb).symm, ?_⟩
        rcases bind_cases hb with ⟨_, _, rfl⟩ | ⟨hr, id, _, _, rfl⟩
        · exact hv
        · simp only at hv
          cases hp : op.packet <;> rw [hp] at hv <;> simp [withPacketId] at hv ⊢ <;> exact hv
  | encode op buf buf' enc r hc he => exact old (new := []) (by simp) nil (Nat.le_refl _) (fun _ => id)
  | finish op now s hc hsteps hs =>
    have fresh : ∀ o ∈ c.ops.queued, o.uid ≠ op.uid := by
      intro o ho he
      have h1 := hi.once op.uid
      unfold places born at h1
      have h2 : 1 ≤ (c.ops.queued.map (·.uid)).count op.uid :=
        List.one_le_count_iff.2 (List.mem_map.2 ⟨o, ho, he⟩)
      simp only [OpState.held, hc, List.map_append, List.count_append, Option.toList_some, List.map_cons, List.map_nil,
        List.count_singleton_self] at h1
      split at h1 <;> omega
    have key : ∀ {s : OpState}, s.log = c.ops.log ++ [.encoded op.uid op.packet] → s.nextUid = c.ops.nextUid →
        s.queued = c.ops.queued → s.current = none → Pubacks c.ops s [.encoded op.uid op.packet] := by
      intro s h1 h2 h3 h4
      refine ⟨h1, by omega, ?_, ?_, ?_⟩
      · intro o ho v hv
        simp only [OpState.waiting, h3, h4, Option.toList_none, List.append_nil] at ho
        refine .inl ⟨⟨o, by simp [OpState.waiting, ho], rfl, hv⟩, by simp, fun p hm => ?_⟩
        simp at hm
        exact fresh o ho hm.1
      · intro a x b hx u v he
        subst he
        cases a with
        | nil =>
          simp at hx
          exact ⟨rfl, op, by simp [OpState.waiting, hc], hx.1.1, hx.1.2⟩
        | cons y a => have := congrArg List.length hx; simp at this
      · intro a x b hx u id he
        subst he
        have : Effect.pubackQueued u id ∈ [Effect.encoded op.uid op.packet] := by rw [hx]; simp
        simp at this
    obtain ⟨_, ⟨_, _, rfl⟩ | ⟨_, rfl⟩⟩ := finish_cases hs
    · exact ⟨_, key rfl rfl rfl rfl⟩
    · exact ⟨_, key rfl rfl rfl rfl⟩
  | write data => exact old rfl (by simp [Effect.puback]) (Nat.le_refl _) (fun _ => id)
  | pinged uid => exact old rfl (by simp [Effect.puback]) (Nat.le_refl _) (fun _ => id)
  | unwrite => exact old (new := []) (by simp) nil (Nat.le_refl _) (fun _ => id)
  | written e =>
    rw [completeAll_eq]
    exact old rfl (completions_puback _ _) (Nat.le_refl _) (fun _ => id)
  | ack id uid op rest e a ht hu => exact old rfl (by simp [Effect.puback]) (Nat.le_refl _) (fun _ => _root_.id)
  | timeout op rest hu ht => exact old rfl (by simp [Effect.puback]) (Nat.le_refl _) (fun _ => id)
  | forget uid => exact old (new := []) (by simp) nil (Nat.le_refl _) (fun _ => id)
  | fresh hq => exact old (new := []) (by simp) nil (Nat.le_refl _) (fun _ => id)
  | disconnection e st hst =>
    refine ⟨_, onDisconnection_log cfg c.ops, by simp, ?_, ?_, ?_⟩
    · intro o ho v hv
      simp only [OpState.waiting, onDisconnection_queued, onDisconnection_current, Option.toList_none,
        List.append_nil, keep, List.mem_filter] at ho
      have := ho.2
      rw [hv] at this
      cases hb : cfg.offline <;> simp [retained, isUser, hb] at this
    · intro a x b hx u v he
      subst he
      have : Effect.encoded u (.puback v) ∈
          completions (c.ops.lostOnDisconnection cfg) .offlinePolicy ++ [.disconnected] := by rw [hx]; simp
      simp [completions] at this
    · intro a x b hx u id he
      subst he
      have : Effect.pubackQueued u id ∈
          completions (c.ops.lostOnDisconnection cfg) .offlinePolicy ++ [.disconnected] := by rw [hx]; simp
      simp [completions] at this
  | connection settings now hst =>
    have hnew : ∀ e ∈ completions (lostOnConnection cfg settings c.ops) .offlinePolicy ++ [.connected settings],
        e.puback = false := by
      intro x hx
      rcases List.mem_append.1 hx with hx | hx
      · exact completions_puback _ _ x hx
      · rw [List.mem_singleton.1 hx]; rfl
    simp only [Client.toConnected]
    refine ⟨_, .boring (onConnection_log cfg settings c.ops) hnew (by simp) ?_⟩
    intro o ho v hv
    simp only [OpState.waiting, onConnection_current, List.mem_append] at ho
    rcases ho with ho | ho
    · have h1 : (o.uid, o.packet) ∈ (requeued cfg settings c.ops).map (fun op => (op.uid, op.packet)) := by
        rw [onConnection_queued] at ho
        rw [← changeStatsAll_packets]
        exact List.mem_map.2 ⟨o, ho, rfl⟩
      obtain ⟨o', ho', hx⟩ := List.mem_map.1 h1
      simp only [Prod.mk.injEq, hv] at hx
      have no : o' ∉ c.ops.unacked := fun hm => by
        have := ha.acked o' hm
        rw [hx.2] at this
        cases this
      refine ⟨o', ?_, hx⟩
      unfold requeued at ho'
      simp only [OpState.waiting, List.mem_append]
      split at ho'
      · simp only [List.mem_append, List.mem_filter] at ho'
        rcases ho' with ho' | ho' | ho'
        · exact absurd ho'.1 no
        · exact absurd ho'.1 no
        · exact .inl ho'
      · simp only [keep, List.mem_append, List.mem_filter] at ho'
        rcases ho' with ho' | ho'
        · exact absurd ho'.1 no
        · exact .inl ho'
    · exact ⟨o, List.mem_append_right _ ho, rfl, hv⟩
  | reset hst =>
    simp only [Client.toStopped]
    refine old (resetAll_log c.ops .userStop) (completions_puback _ _) (by simp) ?_
    intro o ho
    simp only [OpState.waiting, resetAll_queued, resetAll_current, List.nil_append] at ho
    exact List.mem_append_right _ ho
  | terminate hst hd =>
    simp only [Client.toTerminated]
    refine old (resetAll_log c.ops .terminated) (completions_puback _ _) (by simp) ?_
    intro o ho
    simp only [OpState.waiting, resetAll_queued, resetAll_current, List.nil_append] at ho
    exact List.mem_append_right _ ho

/-- PUBACK operations that are waiting have been queued on the present connection; no number is given out twice. -/
structure PubackInv (c : Client) : Prop where
  wait : ∀ op ∈ c.ops.waiting, ∀ v, op.packet = .puback v → Pend c.ops.log op.uid v.packetId
  sent : Each (fun a x => ∀ u v, x = .encoded u (.puback v) → Pend a u v.packetId) c.ops.log
  bound : ∀ u id, .pubackQueued u id ∈ c.ops.log → u < c.ops.nextUid
  once : Each (fun a x => ∀ u id, x = .pubackQueued u id → ∀ id', .pubackQueued u id' ∉ a) c.ops.log

theorem puback_new (cfg : Config) : PubackInv (Client.new cfg) := by
  refine ⟨?_, .nil _, ?_, .nil _⟩ <;> simp [Client.new, OpState.waiting]

theorem puback_move {cfg : Config} {c c' : Client} (hi : HeldInv c) (ha : LiveInv c) (h : PubackInv c)
    (m : Move cfg c c') : PubackInv c' := by
  obtain ⟨new, hl, hn, hw, hs, hq⟩ := move_pubacks hi ha m
  refine ⟨?_, ?_, ?_, ?_⟩
  · intro op ho v hv
    rw [hl]
    rcases hw op ho v hv with ⟨⟨o, h1, h2, h3⟩, h4, h5⟩ | ⟨n, hx⟩
    · rw [← h2] at h5 ⊢
      exact (h.wait o h1 v h3).append h4 h5
    · exact ⟨c.ops.log ++ n, [], by simp [hx], by simp, by simp⟩
  · rw [hl]
    refine h.sent.append fun a x b hx u v he => ?_
    obtain ⟨rfl, o, h1, h2, h3⟩ := hs a x b hx u v he
    rw [List.append_nil, ← h2]
    exact h.wait o h1 v h3
  · intro u id hm
    rw [hl] at hm
    rcases List.mem_append.1 hm with hm | hm
    · have := h.bound u id hm; omega
    · obtain ⟨a, b, hx⟩ := List.append_of_mem hm
      have := hq a _ b hx u id rfl
      omega
  · rw [hl]
    refine h.once.append fun a x b hx u id he id' hm => ?_
    obtain ⟨h1, h2, h3⟩ := hq a x b hx u id he
    rcases List.mem_append.1 hm with hm | hm
    · have := h.bound _ _ hm; omega
    · exact h3 id' hm

/-! ## The order of entries -/

/-- Why a PUBACK is queued: a publish delivered without being taken over, or a control invoked. -/
def Causes (x : Effect) (id : Nat) : Prop :=
  (∃ v, x = .delivered v none ∧ v.qos ≠ 0 ∧ v.packetId = id) ∨ ∃ ctl, x = .invoked ctl (some id)

/-- What stands before an entry. -/
structure Before (a : List Effect) (x : Effect) : Prop where
  cause : ∀ u id, x = .pubackQueued u id → ∃ b y, a = b ++ [y] ∧ Causes y id
  invoked : ∀ ctl id, x = .invoked ctl (some id) → Outstanding a ctl id ∧ ∀ id', .invoked ctl (some id') ∉ a

/-- What stands behind the delivery of a QoS 1 publish that is not taken over: its PUBACK, unless its packet identifier
is already taken over. -/
def Answered (log : List Effect) : Prop :=
  ∀ a v b, log = a ++ .delivered v none :: b → v.qos ≠ 0 →
    (∃ u b', b = .pubackQueued u v.packetId :: b') ∨ ∃ ctl, Outstanding a ctl v.packetId

theorem Answered.append {log new : List Effect} (h : Answered log)
    (hn : ∀ a v b, new = a ++ .delivered v none :: b → v.qos ≠ 0 →
      (∃ u b', b = .pubackQueued u v.packetId :: b') ∨ ∃ ctl, Outstanding (log ++ a) ctl v.packetId) :
    Answered (log ++ new) := by
  intro a v b hab hv
  rcases List.append_eq_append_iff.1 hab with ⟨m, h1, h2⟩ | ⟨m, h1, h2⟩
  · rw [h1]; exact hn m v b h2 hv
  · cases m with
    | nil =>
      simp only [List.nil_append] at h2; simp only [List.append_nil] at h1
      rw [← h1]
      have := hn [] v b (by rw [← h2]; rfl) hv
      simpa using this
    | cons y m =>
      simp only [List.cons_append, List.cons.injEq] at h2
      rcases h a v m (by rw [h1, h2.1]) hv with ⟨u, b', h3⟩ | h3
      · exact .inl ⟨u, b' ++ new, by rw [h2.2, h3]; rfl⟩
      · exact .inr h3

structure OrderInv (c : Client) : Prop where
  before : Each Before c.ops.log
  behind : Answered c.ops.log

theorem order_new (cfg : Config) : OrderInv (Client.new cfg) := by
  refine ⟨.nil _, ?_⟩
  intro a v b h
  have := congrArg List.length h
  simp [Client.new] at this

theorem before_boring (a : List Effect) {x : Effect} (h : x.manual = false) : Before a x :=
  ⟨fun _ _ he => (by subst he; cases h), fun _ _ he => (by subst he; cases h)⟩
theorem before_delivered (a : List Effect) (v : PublishView) (k : Option Nat) : Before a (.delivered v k) :=
  ⟨nofun, nofun⟩

/-- The ways to split a list of one or two. -/
theorem split_one {α} {y x : α} {a b : List α} (h : [y] = a ++ x :: b) : a = [] ∧ x = y ∧ b = [] := by
  cases a with
  | nil => simp at h; exact ⟨rfl, h.1.symm, h.2⟩
  | cons z a => have := congrArg List.length h; simp at this
theorem split_two {α} {y z x : α} {a b : List α} (h : [y, z] = a ++ x :: b) :
    (a = [] ∧ x = y ∧ b = [z]) ∨ (a = [y] ∧ x = z ∧ b = []) := by
  cases a with
  | nil => simp at h; exact .inl ⟨rfl, h.1.symm, h.2.symm⟩
  | cons w a =>
    simp only [List.cons_append, List.cons.injEq] at h
    obtain ⟨rfl, h⟩ := h
    obtain ⟨rfl, rfl, rfl⟩ := split_one h
    exact .inr ⟨rfl, rfl, rfl⟩

theorem order_move {cfg : Config} {c c' : Client} (hm : ManualInv c) (h : OrderInv c) (m : Move cfg c c') :
    OrderInv c' := by
  obtain ⟨new, hl, hk⟩ := move_manual m
  have quiet : (∀ a x b, new = a ++ x :: b → Before (c.ops.log ++ a) x) →
      (∀ a v b, new = a ++ .delivered v none :: b → v.qos ≠ 0 →
      (∃ u b', b = .pubackQueued u v.packetId :: b') ∨ ∃ ctl, Outstanding (c.ops.log ++ a) ctl v.packetId) →
      OrderInv c' := fun h1 h2 => ⟨by rw [hl]; exact h.before.append h1, by rw [hl]; exact h.behind.append h2⟩
  have mem : ∀ {a b : List Effect} {x : Effect}, new = a ++ x :: b → x ∈ new := by
    intro a b x hx; rw [hx]; simp
  cases hk with
  | other h1 h2 =>
    exact quiet (fun a x b hx => before_boring _ (h1 x (mem hx)))
      (fun a v b hx => absurd (mem hx) (not_manual h1 rfl))
  | cleared h1 h2 =>
    exact quiet (fun a x b hx => before_boring _ (h1 x (mem hx)))
      (fun a v b hx => absurd (mem hx) (not_manual h1 rfl))
  | lost done h1 h2 h3 =>
    have hx : ∀ x ∈ new, x.manual = false ∨ x = .disconnected := by
      subst h2
      intro x hx
      rcases List.mem_append.1 hx with hx | hx
      · exact .inl (h1 x hx)
      · exact .inr (by simpa using hx)
    refine quiet (fun a x b hab => ?_) (fun a v b hab => ?_)
    · rcases hx x (mem hab) with h | rfl
      · exact before_boring _ h
      · exact ⟨nofun, nofun⟩
    · rcases hx _ (mem hab) with h | h <;> cases h
  | plain v hq h2 h3 =>
    subst h2
    refine quiet (fun a x b hab => ?_) (fun a w b hab hw => ?_)
    · obtain ⟨_, rfl, _⟩ := split_one hab; exact before_delivered ..
    · obtain ⟨_, hv, _⟩ := split_one hab; cases hv; exact absurd hq hw
  | auto v hq hg h2 h3 =>
    subst h2
    refine quiet (fun a x b hab => ?_) (fun a w b hab hw => ?_)
    · rcases split_two hab with ⟨_, rfl, _⟩ | ⟨rfl, rfl, _⟩
      · exact before_delivered ..
      · exact ⟨fun u id he => by cases he; exact ⟨_, _, rfl, .inl ⟨v, rfl, hq, rfl⟩⟩, nofun⟩
    · rcases split_two hab with ⟨_, hv, rfl⟩ | ⟨_, hv, _⟩
      · cases hv; exact .inl ⟨_, _, rfl⟩
      · cases hv
  | held v ctl hq hg h2 h3 =>
    subst h2
    refine quiet (fun a x b hab => ?_) (fun a w b hab hw => ?_)
    · obtain ⟨_, rfl, _⟩ := split_one hab; exact before_delivered ..
    · obtain ⟨rfl, hv, _⟩ := split_one hab
      cases hv
      refine .inr ⟨ctl, ?_⟩
      rw [List.append_nil]
      exact hm.out _ _ (hm.forth _ _ hg)
  | again v ctl hq hg h2 h3 =>
    subst h2
    refine quiet (fun a x b hab => ?_) (fun a w b hab hw => ?_)
    · obtain ⟨_, rfl, _⟩ := split_one hab; exact before_delivered ..
    · obtain ⟨_, hv, _⟩ := split_one hab; cases hv
  | acquired v hq hg h2 h3 =>
    subst h2
    refine quiet (fun a x b hab => ?_) (fun a w b hab hw => ?_)
    · obtain ⟨_, rfl, _⟩ := split_one hab; exact before_delivered ..
    · obtain ⟨_, hv, _⟩ := split_one hab; cases hv
  | invoked ctl id hg h2 h3 =>
    subst h2
    refine quiet (fun a x b hab => ?_) (fun a w b hab hw => ?_)
    · rcases split_two hab with ⟨rfl, rfl, _⟩ | ⟨rfl, rfl, _⟩
      · refine ⟨nofun, fun ctl' id' he => ?_⟩
        cases he
        rw [List.append_nil]
        refine ⟨hm.out _ _ hg, fun id' hx => ?_⟩
        have := (hm.used _ _ hx).2
        rw [hg] at this; cases this
      · exact ⟨fun u id he => by cases he; exact ⟨_, _, rfl, .inr ⟨ctl, rfl⟩⟩, nofun⟩
    · rcases split_two hab with ⟨_, hv, _⟩ | ⟨_, hv, _⟩ <;> cases hv
  | refused ctl hg h2 h3 =>
    subst h2
    refine quiet (fun a x b hab => ?_) (fun a w b hab hw => ?_)
    · obtain ⟨_, rfl, _⟩ := split_one hab; exact ⟨nofun, nofun⟩
    · obtain ⟨_, hv, _⟩ := split_one hab; cases hv

theorem reachable_manual {cfg : Config} {c : Client} (h : Reachable cfg c) :
    ManualInv c ∧ PubackInv c ∧ OrderInv c :=
  (reachable_inv (P := fun c => (HeldInv c ∧ LiveInv c) ∧ ManualInv c ∧ PubackInv c ∧ OrderInv c)
    ⟨⟨held_new cfg, live_new cfg⟩, manual_new cfg, puback_new cfg, order_new cfg⟩
    (fun _ _ ⟨⟨hh, hl⟩, hm, hp, ho⟩ m => ⟨⟨held_move hh m, live_move hh hl m⟩, manual_move hm m, puback_move hh hl hp m,
      order_move hm ho m⟩) h).2

end Mqtt.Client5
