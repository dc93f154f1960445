import Verif.Lemmas.AdapterHeld

/-!
What answers a call that waits, what never does, and what is left when the adapter is gone.
-/
namespace Mqtt.Client5

theorem step_log {cfg : Config} {c c' : Client} {e : Event} (he : Enabled c e) (h : step cfg c e = .ok c') :
    ∃ new, c'.ops.log = c.ops.log ++ new := by
  have key : ∀ {c c' : Client}, Moves cfg c c' → ∃ new, c'.ops.log = c.ops.log ++ new := by
    intro c c' m
    induction m with
    | nil => exact ⟨[], by simp⟩
    | cons m _ ih =>
      obtain ⟨n1, h1, _⟩ := move_log m
      obtain ⟨n2, h3⟩ := ih
      exact ⟨n1 ++ n2, by rw [h3, h1, List.append_assoc]⟩
  exact key (step_moves he h)

/-- A client that is stopped and is to be so stays as it is. -/
structure AtRest (k : Control) : Prop where
  state : k.state = .stopped
  desired : k.desired = .stopped
  channel : k.channel = false

theorem AtRest.life {k k' : Control} (h : AtRest k) (hl : Life k k') :
    AtRest k' ∧ ∃ new, k'.events = k.events ++ new ∧ ∀ e ∈ new, e.ends = true := by
  obtain ⟨h1, h2, h3⟩ := h
  cases hl with
  | soft hs =>
    refine ⟨⟨?_, hs.wants.trans h2, hs.channel.trans h3⟩, hs.events⟩
    rcases hs.state with h | ⟨h, _⟩
    · exact h.trans h1
    · rw [h1] at h; cases h
  | attempt _ hd => rw [h2] at hd; cases hd
  | lost _ hd => rw [h2] at hd; cases hd
  | stopped _ _ _ _ _ _ h => rcases h with h | h | h <;> simp [h1, h3] at h
  | opened h => rw [h1] at h; cases h
  | closing _ h => rw [h1] at h; cases h
  | connected _ h => rw [h1] at h; cases h
  | terminated _ _ hd => rw [h2] at hd; cases hd

end Mqtt.Client5

namespace Mqtt.Adapter

open Mqtt.V5 Mqtt.SubscriptionSet
open Mqtt.Client5 (Config Client LEvent Effect Fault Desired Life Held Soft)

/-! ## Answers -/

theorem mem_onEvent {a : Adapter} {n : Note} (e : LEvent) (h : n ∈ a.log) : n ∈ (a.onEvent e).log := by
  obtain ⟨new, h1, _⟩ := onEvent_log a e
  rw [h1]
  exact List.mem_append_left _ h

theorem mem_events {a : Adapter} {n : Note} (l : List LEvent) (h : n ∈ a.log) : n ∈ (l.foldl Adapter.onEvent a).log :=
  fold_keep (P := fun a : Adapter => n ∈ a.log) l (fun _ x _ h => mem_onEvent x h) h

theorem mem_effects {a : Adapter} {n : Note} (l : List Effect) (h : n ∈ a.log) : n ∈ (l.foldl Adapter.onEffect a).log := by
  refine fold_keep (P := fun a : Adapter => n ∈ a.log) l (fun a x _ h => ?_) h
  have hx := onEffect_effected a x
  generalize a.onEffect x = a' at hx ⊢
  cases hx with
  | none => exact h
  | finish => exact List.mem_append_left _ h
  | publish => exact List.mem_append_left _ h

/-- Events that decide a first connect. -/
def Decides (c : Code) : LEvent → Prop
  | .success => c = .ok
  | .failure e => e ≠ .connectionReset ∧ c = translate e
  | _ => False

theorem events_connect {l : List LEvent} {a : Adapter} {i : Nat} (hs : a.state = .firstConnect) (hi : a.onComplete = some i)
    (hl : .stopped ∉ l) (hd : ∃ x ∈ l, ∃ c, Decides c x) :
    ∃ c, (∃ x ∈ l, Decides c x) ∧ .connectDone i c ∈ (l.foldl Adapter.onEvent a).log := by
  induction l generalizing a with
  | nil => obtain ⟨x, hx, _⟩ := hd; cases hx
  | cons x l ih =>
    rw [List.foldl_cons]
    have done : ∀ n c, (a.note n).completeConnect c = ({ a.note n with onComplete := none } : Adapter).note (.connectDone i c) := by
      intro n c
      unfold Adapter.completeConnect
      show (match a.onComplete with | none => _ | some i => _) = _
      rw [hi]
    have keep : a.onEvent x = a ∨ (∃ n, a.onEvent x = a.note n) → ¬ (∃ c, Decides c x) →
        ∃ c, (∃ y ∈ x :: l, Decides c y) ∧ .connectDone i c ∈ (l.foldl Adapter.onEvent (a.onEvent x)).log := by
      intro h1 h2
      have hd' : ∃ y ∈ l, ∃ c, Decides c y := by
        obtain ⟨y, hy, hc⟩ := hd
        rcases List.mem_cons.1 hy with rfl | hy
        · exact absurd hc h2
        · exact ⟨y, hy, hc⟩
      have : ∃ c, (∃ y ∈ l, Decides c y) ∧ .connectDone i c ∈ (l.foldl Adapter.onEvent (a.onEvent x)).log := by
        rcases h1 with h1 | ⟨n, h1⟩
        · rw [h1]; exact ih hs hi (fun h => hl (List.mem_cons_of_mem _ h)) hd'
        · rw [h1]; exact ih (a := a.note n) hs hi (fun h => hl (List.mem_cons_of_mem _ h)) hd'
      obtain ⟨c, ⟨y, hy, hc⟩, hm⟩ := this
      exact ⟨c, ⟨y, List.mem_cons_of_mem _ hy, hc⟩, hm⟩
    cases x with
    | attempting => exact keep (.inr ⟨_, rfl⟩) (fun ⟨c, h⟩ => h)
    | success =>
      refine ⟨.ok, ⟨_, List.mem_cons_self .., rfl⟩, mem_events l ?_⟩
      unfold Adapter.onEvent
      rw [hs]
      show _ ∈ ((a.note _).completeConnect _).log
      rw [done]
      simp [Adapter.note]
    | failure e =>
      by_cases he : e = .connectionReset
      · refine keep (.inl ?_) (fun ⟨c, h⟩ => h.1 he)
        unfold Adapter.onEvent
        simp [he]
      · refine ⟨translate e, ⟨_, List.mem_cons_self .., he, rfl⟩, mem_events l ?_⟩
        unfold Adapter.onEvent
        dsimp only
        rw [if_neg he, hs]
        show _ ∈ ((a.note _).completeConnect _).log
        rw [done]
        simp [Adapter.note]
    | disconnection e =>
      refine keep (.inl ?_) (fun ⟨c, h⟩ => h)
      unfold Adapter.onEvent
      simp [hs]
    | stopped => exact absurd (List.mem_cons_self ..) hl

/-- A `connect()` that waits is answered as soon as the client reports success or failure. -/
theorem react_connect {s : Sys} {c : Client} {new : List LEvent} {i : Nat} (ha : s.ad.attached = true)
    (he : c.ctl.events = s.client.ctl.events ++ new) (hs : s.ad.state = .firstConnect) (hi : s.ad.onComplete = some i)
    (hl : .stopped ∉ new) (hd : ∃ x ∈ new, ∃ c, Decides c x) :
    ∃ code, (∃ x ∈ new, Decides code x) ∧ .connectDone i code ∈ (s.react c).ad.log := by
  obtain ⟨code, h1, h2⟩ := events_connect hs hi hl hd
  rw [react_attached ha he]
  exact ⟨code, h1, mem_effects _ h2⟩

theorem events_disconnect {l : List LEvent} {a : Adapter} {i : Nat} (hi : a.onDisconnect = some i)
    (hd : .stopped ∈ l) : .disconnectDone i ∈ (l.foldl Adapter.onEvent a).log := by
  induction l generalizing a with
  | nil => cases hd
  | cons x l ih =>
    rw [List.foldl_cons]
    by_cases hx : x = .stopped
    · subst hx
      refine mem_events l ?_
      unfold Adapter.onEvent
      show _ ∈ (a.completeDisconnect.note .closed).log
      unfold Adapter.completeDisconnect
      rw [hi]
      simp [Adapter.note]
    · have hd : .stopped ∈ l := (List.mem_cons.1 hd).resolve_left fun h => hx h.symm
      rcases (onEvent_kept a x).2 with h | h
      · exact ih (h ▸ hi) hd
      · refine absurd h ?_
        have cc : ∀ (a : Adapter) c, a.onDisconnect = some i → (a.completeConnect c).onDisconnect ≠ none := by
          intro a c h
          rw [completeConnect_onDisconnect, h]
          simp
        unfold Adapter.onEvent
        cases x with
        | attempting => show a.onDisconnect ≠ none; simp [hi]
        | success =>
          dsimp only
          split
          · simp [hi]
          · exact cc _ _ hi
          · show a.onDisconnect ≠ none; simp [hi]
        | failure e =>
          dsimp only
          split
          · simp [hi]
          · split
            · simp [hi]
            · exact cc _ _ hi
            · show a.onDisconnect ≠ none; simp [hi]
        | disconnection e =>
          dsimp only
          split
          · show a.onDisconnect ≠ none; simp [hi]
          · simp [hi]
        | stopped => exact absurd rfl hx

/-- A `disconnect()` that waits is answered as soon as the client reports that it has stopped. -/
theorem react_disconnect {s : Sys} {c : Client} {new : List LEvent} {i : Nat} (ha : s.ad.attached = true)
    (he : c.ctl.events = s.client.ctl.events ++ new) (hi : s.ad.onDisconnect = some i) (hd : .stopped ∈ new) :
    .disconnectDone i ∈ (s.react c).ad.log := by
  rw [react_attached ha he]
  exact mem_effects _ (events_disconnect hi hd)

/-! ## Counting -/

theorem countP_pos {l : List Note} {p : Note → Bool} {n : Note} (h : n ∈ l) (hp : p n = true) : 1 ≤ l.countP p :=
  List.countP_pos_iff.2 ⟨n, h, hp⟩

theorem asksConnect_le {a : Adapter} (h : Numbered a) (i : Nat) : tally a (Note.asksConnect i) ≤ 1 := by
  refine Nat.le_trans (List.countP_mono_left fun n _ hn => ?_) (Nat.le_trans (h i) (by split <;> omega))
  cases n <;> first | cases hn; done | exact hn

theorem asksDisconnect_le {a : Adapter} (h : Numbered a) (i : Nat) : tally a (Note.asksDisconnect i) ≤ 1 := by
  refine Nat.le_trans (List.countP_mono_left fun n _ hn => ?_) (Nat.le_trans (h i) (by split <;> omega))
  cases n <;> first | cases hn; done | exact hn

theorem asksOperation_le {a : Adapter} (h : Numbered a) (i : Nat) : tally a (Note.asksOperation i) ≤ 1 := by
  refine Nat.le_trans (List.countP_mono_left fun n _ hn => ?_) (Nat.le_trans (h i) (by split <;> omega))
  cases n <;> first | cases hn; done | exact hn

/-! ## Finding a free id -/

theorem nextAdapterId_lt {i : Nat} (h : 1 ≤ i ∧ i ≤ 65535) : nextAdapterId i = i % 65535 + 1 := by
  unfold nextAdapterId
  split <;> omega

/-- No id is found only when all are in use. -/
theorem findFree_none {t : AMap Nat AOp} {n i : Nat} (h : findFree t n i = none) (hi : 1 ≤ i ∧ i ≤ 65535) :
    ∀ k < n, (t.get ((i - 1 + k) % 65535 + 1)).isSome = true := by
  induction n generalizing i with
  | zero => intro k hk; omega
  | succ n ih =>
    unfold findFree at h
    split at h
    · rename_i hg
      intro k hk
      have hr := nextAdapterId_range hi
      have he := nextAdapterId_lt hi
      cases k with
      | zero =>
        rw [show (i - 1 + 0) % 65535 + 1 = i by omega]
        exact hg
      | succ k =>
        have := ih h hr k (by omega)
        rw [he] at this
        rw [show (i - 1 + (k + 1)) % 65535 + 1 = (i % 65535 + 1 - 1 + k) % 65535 + 1 by omega]
        exact this
    · cases h

theorem findFree_full {t : AMap Nat AOp} {i : Nat} (h : findFree t u16max i = none) (hi : 1 ≤ i ∧ i ≤ 65535) {id : Nat}
    (hid : 1 ≤ id ∧ id ≤ 65535) : ∃ op, t.get id = some op := by
  have := findFree_none h hi ((id + 65535 - i) % 65535) (by omega)
  rw [show (i - 1 + (id + 65535 - i) % 65535) % 65535 + 1 = id by omega] at this
  exact Option.isSome_iff_exists.1 this

/-! ## An adapter that is gone -/

theorem ran_gone {s s' : Sys} {t : Task} (h : Ran s t s') (hg : s.ad.gone = false) (ht : t ≠ .destroy) :
    s'.ad.gone = false := by
  by_cases hr : t.isRef = true
  · obtain ⟨a, h1, h2⟩ := ran_ref h hr
    rw [h2, (releaseInternal_counts _).gone, h1.gone, hg]
  · cases h with
    | attach => exact (releaseListener_counts _).gone.trans hg
    | detach => exact (releaseInternal_counts _).gone.trans hg
    | destroy => exact absurd rfl ht
    | connect => exact absurd rfl hr
    | disconnect => exact absurd rfl hr
    | submit => exact absurd rfl hr

/-- When the adapter is gone its table is empty. -/
theorem reachable_empty {allow : Sys → Event → Prop} {s : Sys} (h : ReachableIf allow s) (hg : s.ad.gone = true) :
    s.ad.table = [] := by
  have : Good s ∧ (s.ad.gone = true → s.ad.table = []) := by
    clear hg
    refine reachable_induct (P := fun s => Good s ∧ (s.ad.gone = true → s.ad.table = [])) (fun cfg c hc hd => ?_)
      (fun s s' e hl he _ hd => ⟨hl.1.did he hd, fun hg => ?_⟩) h
    · exact ⟨reachable_good (allow := allow) (.new hc hd), fun hg => by cases hg⟩
    · obtain ⟨hg0, ht⟩ := hl
      have ext : s.ad.gone = true → s.ad.external = 0 := fun hx => by
        cases hg0.refs with
        | fresh _ _ _ _ h => rw [hx] at h; cases h
        | live _ _ h => rw [hx] at h; cases h
        | dying _ _ _ _ h => rw [hx] at h; cases h
        | dead _ _ h => rw [hx] at h; cases h
        | gone _ _ _ h => exact h
      cases hd with
      | refused => exact ht hg
      | connect o _ _ => exact ht hg
      | disconnect => exact ht hg
      | add _ k hk ha =>
        have hx : s.ad.gone = true := by
          have hg : (s.ad.add k).gone = true := hg
          unfold Adapter.add at hg
          split at hg <;> exact hg
        have h0 := ext hx
        cases e <;> simp [Event.adds] at ha <;> simp [Enabled, h0] at he
      | acquire => exact ht hg
      | release =>
        have hc := release_counts s.ad
        show s.ad.release.table = []
        rw [hc.table]
        exact ht (hc.gone ▸ hg)
      | run t ts _ hts hrun =>
        obtain ⟨hg1, hran⟩ := runTask_ran hrun
        have hg1 : s.ad.gone = false := hg1
        by_cases hd : t = .destroy
        · subst hd
          cases hran
          rfl
        · rw [ran_gone hran hg1 hd] at hg
          cases hg
      | client e c hstep hng =>
        have hx : s.ad.gone = true := (react_same s c).gone ▸ hg
        have hte := ht hx
        have : ∀ id op, (s.react c).ad.table.get id ≠ some op := by
          intro id op hget
          obtain ⟨new, hlog⟩ := Client5.step_log he.1 hstep
          have := ((react_table s c new hlog hg0.table.nodup hg0.table.distinct).2 id op).1 hget
          rw [hte] at this
          cases this.1
        cases hx2 : (s.react c).ad.table with
        | nil => rfl
        | cons p l =>
          have := this p.1 p.2
          rw [hx2] at this
          exact absurd (by simp [AMap.get]) this
  exact this.2 hg

theorem ReachableIf.follows {allow : Sys → Event → Prop} {s s' : Sys} (h : Reachable s) (hf : Follows allow s s') : Reachable s' := by
  induction hf with
  | refl => exact h
  | step _ he _ hs ih => exact .step ih he trivial hs

theorem gone_parts {s : Sys} (h : Reachable s) (hg : s.ad.gone = true) :
    s.ad.tasks = [] ∧ s.ad.attached = false ∧ s.ad.external = 0 := by
  cases (reachable_good h).refs with
  | fresh _ _ _ _ h => rw [hg] at h; cases h
  | live _ _ h => rw [hg] at h; cases h
  | dying _ _ _ _ h => rw [hg] at h; cases h
  | dead _ _ h => rw [hg] at h; cases h
  | gone h1 h2 _ h4 => exact ⟨h1, h2, h4⟩

/-- Once the adapter is gone only the client moves. -/
theorem gone_step {s s' : Sys} {e : Event} (h : Reachable s) (hg : s.ad.gone = true) (he : Enabled s e)
    (hs : step s e = .ok s') : s' = s ∨ ∃ c, s' = s.react c := by
  obtain ⟨h1, h2, h3⟩ := gone_parts h hg
  cases e with
  | connect o => simp [Enabled, h3] at he
  | disconnect => simp [Enabled, h3] at he
  | publish => simp [Enabled, h3] at he
  | subscribe => simp [Enabled, h3] at he
  | resubscribe => simp [Enabled, h3] at he
  | unsubscribe => simp [Enabled, h3] at he
  | acquire => simp [Enabled, h3] at he
  | release => simp [Enabled, h3] at he
  | run => exact absurd h1 he
  | client e =>
    cases step_did hs with
    | refused => exact .inl rfl
    | add _ _ _ h => cases h
    | client _ c _ _ => exact .inr ⟨c, rfl⟩

theorem gone_stays {s s' : Sys} {e : Event} (h : Reachable s) (hg : s.ad.gone = true) (he : Enabled s e)
    (hs : step s e = .ok s') : s'.ad.gone = true := by
  rcases gone_step h hg he hs with rfl | ⟨c, rfl⟩
  · exact hg
  · exact (react_same s c).gone.trans hg

/-- New notes without the termination callback. -/
def Goes (a a' : Adapter) : Prop := ∃ new, a'.log = a.log ++ new ∧ .terminated ∉ new

theorem Goes.refl (a : Adapter) : Goes a a := ⟨[], by simp, by simp⟩

theorem Goes.trans {a b c : Adapter} (h : Goes a b) (h' : Goes b c) : Goes a c := by
  obtain ⟨n1, h1, h2⟩ := h
  obtain ⟨n2, h3, h4⟩ := h'
  exact ⟨n1 ++ n2, by rw [h3, h1, List.append_assoc], by simp [h2, h4]⟩

theorem Goes.of {a a' : Adapter} (h : a'.log = a.log) : Goes a a' := ⟨[], by simp [h], by simp⟩

theorem Goes.note (a : Adapter) {n : Note} (h : n ≠ .terminated) : Goes a (a.note n) :=
  ⟨[n], rfl, fun hx => h (List.mem_singleton.1 hx).symm⟩

theorem Goes.aside {a a' : Adapter} (h : ∃ new, a'.log = a.log ++ new ∧ ∀ n ∈ new, n.aside = true) : Goes a a' := by
  obtain ⟨new, h1, h2⟩ := h
  exact ⟨new, h1, fun hx => Bool.false_ne_true (h2 _ hx)⟩

theorem react_goes (s : Sys) (c : Client) : Goes s.ad (s.react c).ad := by
  unfold Sys.react
  have fx : ∀ (l : List Effect) (a : Adapter), Goes a (l.foldl Adapter.onEffect a) := by
    intro l a
    refine fold_keep (P := Goes a) l (fun b x _ hb => hb.trans ?_) (.refl a)
    have hx := onEffect_effected b x
    generalize b.onEffect x = b' at hx ⊢
    cases hx with
    | none => exact .refl _
    | finish => exact .note _ (by simp)
    | publish => exact .note _ (by simp)
  have ev : ∀ (l : List LEvent) (a : Adapter), Goes a (l.foldl (if s.ad.attached then Adapter.onEvent else Adapter.overlook) a) := by
    intro l a
    refine fold_keep (P := Goes a) l (fun b x _ hb => hb.trans ?_) (.refl a)
    split
    · exact .aside (onEvent_log b x)
    · exact .aside (overlook_log b x)
  exact (ev _ _).trans (fx _ _)

/-- Once the adapter is gone it calls nothing. -/
theorem gone_new {s s' : Sys} {e : Event} (h : Reachable s) (hg : s.ad.gone = true) (he : Enabled s e)
    (hs : step s e = .ok s') {new : List Note} (hl : s'.ad.log = s.ad.log ++ new) : ∀ n ∈ new, n = .attempting := by
  have key : ∃ new, s'.ad.log = s.ad.log ++ new ∧ ∀ n ∈ new, n = .attempting := by
    rcases gone_step h hg he hs with rfl | ⟨c, rfl⟩
    · exact ⟨[], by simp, by simp⟩
    · have ht := reachable_empty h hg
      have ha := (gone_parts h hg).2.1
      unfold Sys.react
      dsimp only
      rw [if_neg (by rw [ha]; simp)]
      have fx : ∀ (l : List Effect) (a : Adapter), a.table = [] → a.attached = false → l.foldl Adapter.onEffect a = a := by
        intro l a h1 h2
        refine fold_keep (P := fun x => x = a) l (fun b x _ hb => ?_) rfl
        subst hb
        unfold Adapter.onEffect
        split
        · unfold Adapter.onCompleted
          rw [h1]
          rfl
        · rw [h2]
          rfl
        · rfl
      have ev : ∀ (l : List LEvent) (a : Adapter), (l.foldl Adapter.overlook a).table = a.table ∧
          (l.foldl Adapter.overlook a).attached = a.attached ∧
          ∃ new, (l.foldl Adapter.overlook a).log = a.log ++ new ∧ ∀ n ∈ new, n = .attempting := by
        intro l a
        refine fold_keep (P := fun b : Adapter => b.table = a.table ∧ b.attached = a.attached ∧
          ∃ new, b.log = a.log ++ new ∧ ∀ n ∈ new, n = .attempting) l (fun b x _ hb => ?_) ⟨rfl, rfl, [], by simp, by simp⟩
        unfold Adapter.overlook
        split
        · obtain ⟨h1, h2, new, h3, h4⟩ := hb
          refine ⟨h1, h2, new ++ [.attempting], ?_, fun n hn => ?_⟩
          · show b.log ++ [_] = _
            rw [h3, List.append_assoc]
          · rcases List.mem_append.1 hn with hn | hn
            · exact h4 n hn
            · exact List.mem_singleton.1 hn
        · exact hb
      obtain ⟨e1, e2, e3⟩ := ev (c.ctl.events.drop s.client.ctl.events.length) s.ad
      rw [fx _ _ (e1.trans ht) (e2.trans ha)]
      exact e3
  obtain ⟨new', h1, h2⟩ := key
  have : new' = new := List.append_cancel_left (h1.symm.trans hl)
  subst this
  exact h2

theorem gone_silent {s s' : Sys} {e : Event} (h : Reachable s) (hg : s.ad.gone = true) (he : Enabled s e)
    (hs : step s e = .ok s') {n : Note} (hn : n ∈ s'.ad.log) (hx : n ≠ .attempting) : n ∈ s.ad.log := by
  obtain ⟨new, h1⟩ : ∃ new, s'.ad.log = s.ad.log ++ new := by
    rcases gone_step h hg he hs with rfl | ⟨c, rfl⟩
    · exact ⟨[], by simp⟩
    · obtain ⟨new, h1, _⟩ := react_goes s c
      exact ⟨new, h1⟩
  rw [h1] at hn
  rcases List.mem_append.1 hn with hn | hn
  · exact hn
  · exact absurd (gone_new h hg he hs h1 n hn) hx

/-! ## Termination -/

theorem ran_goes {s s' : Sys} {t : Task} (h : Ran s t s') : Goes s.ad s'.ad ∨ s'.ad = s.ad.destroy := by
  cases h with
  | attach => exact .inl (.of (releaseListener_counts _).log)
  | detach => exact .inl (.of (releaseInternal_counts _).log)
  | connect j o =>
    refine .inl (Goes.trans ?_ (.of (releaseInternal_counts _).log))
    by_cases hst : s.ad.state = .stayDisconnected
    · rw [connectTask_start hst]
      exact (Goes.aside (completeDisconnect_log s.ad)).trans ⟨[.connecting j], rfl, by simp⟩
    · rw [connectTask_refuse hst]
      exact .note _ (by simp)
  | disconnect j =>
    refine .inl (Goes.trans ?_ (.of (releaseInternal_counts _).log))
    have hh : Goes s.ad s.ad.halt := by
      unfold Adapter.halt
      split
      · exact .aside (completeConnect_log s.ad .connectionShutdown)
      · exact .of rfl
    by_cases hst : s.ad.state = .stayDisconnected
    · rw [disconnectTask_idle hst]
      exact .note _ (by simp)
    · by_cases hd : s.client.ctl.desired = .stopped
      · rw [disconnectTask_stopped hst hd]
        exact hh.trans ((Goes.note _ (by simp)).trans (.note _ (by simp)))
      · rw [disconnectTask_stop hst hd]
        exact hh.trans (.of rfl)
  | submit id s1 hsub =>
    refine .inl (Goes.trans ?_ (.of (releaseInternal_counts _).log))
    cases hsub with
    | ended op r _ => exact ⟨[_], rfl, by simp⟩
    | sent op op' set p _ _ _ _ =>
      unfold Sys.submitOp
      exact Goes.trans (.of rfl) (react_goes (Sys.mk s.cfg s.client _) _)
  | destroy => exact .inr rfl

/-- Nothing is called after the termination callback, and when it is called nothing is owed. -/
structure Final (s : Sys) : Prop where
  gone : .terminated ∈ s.ad.log → s.ad.gone = true
  told : s.ad.gone = true → .terminated ∈ s.ad.log
  last : ∀ pre post, s.ad.log = pre ++ .terminated :: post → ∀ n ∈ post, n = .attempting

theorem Final.goes {s s' : Sys} (h : Final s) (hg : s.ad.gone = false) (hs : Goes s.ad s'.ad) (hg' : s'.ad.gone = false) :
    Final s' := by
  obtain ⟨new, h1, h2⟩ := hs
  have h3 : .terminated ∉ s'.ad.log := by
    rw [h1]
    intro hx
    rcases List.mem_append.1 hx with hx | hx
    · have := h.gone hx
      rw [hg] at this
      cases this
    · exact h2 hx
  exact ⟨fun hx => absurd hx h3, fun hx => (by rw [hg'] at hx; cases hx),
    fun pre post hx => absurd (by rw [hx]; simp) h3⟩

theorem reachable_final {s : Sys} (h : Reachable s) : Final s := by
  induction h with
  | new => exact ⟨fun h => (by simp at h), fun h => (by simp at h), fun pre post h => (by cases pre <;> cases h)⟩
  | @step s s' e hr he _ hs ih =>
    by_cases hg : s.ad.gone = true
    · have hg' := gone_stays hr hg he hs
      have ht := ih.told hg
      obtain ⟨new, h1⟩ : ∃ new, s'.ad.log = s.ad.log ++ new := by
        rcases gone_step hr hg he hs with rfl | ⟨c, rfl⟩
        · exact ⟨[], by simp⟩
        · obtain ⟨new, h1, _⟩ := react_goes s c
          exact ⟨new, h1⟩
      have hnew : ∀ n ∈ new, n = .attempting := gone_new hr hg he hs h1
      refine ⟨fun _ => hg', fun _ => by rw [h1]; exact List.mem_append_left _ ht, fun pre post hx => ?_⟩
      rw [h1] at hx
      rcases List.append_eq_append_iff.1 hx with ⟨l, h2, h3⟩ | ⟨l, h2, h3⟩
      · -- `.terminated` among the new notes
        exfalso
        have := hnew .terminated (by rw [h3]; simp)
        cases this
      · cases l with
        | nil =>
          simp at h3
          have := hnew .terminated (by rw [← h3]; simp)
          cases this
        | cons n l =>
          injection h3 with h4 h5
          subst h4
          intro m hm
          rw [h5] at hm
          rcases List.mem_append.1 hm with hm | hm
          · exact ih.last pre l h2 m hm
          · exact hnew m hm
    · have hg : s.ad.gone = false := by simpa using hg
      have hd := step_did hs
      cases hd with
      | refused => exact ih
      | connect o _ _ => exact ih.goes hg ⟨[_], rfl, by simp⟩ hg
      | disconnect => exact ih.goes hg ⟨[_], rfl, by simp⟩ hg
      | add _ k _ _ =>
        unfold Adapter.add
        split
        · exact ih.goes hg (.of rfl) hg
        · exact ih.goes hg ⟨[_], rfl, by simp⟩ hg
      | acquire => exact ih.goes hg (.of rfl) hg
      | release => exact ih.goes hg (.of (release_counts s.ad).log) ((release_counts s.ad).gone.trans hg)
      | run t ts _ ht hrun =>
        obtain ⟨_, hran⟩ := runTask_ran hrun
        have ih' : Final { s with ad := { s.ad with tasks := ts } } := ⟨ih.gone, ih.told, ih.last⟩
        by_cases hdes : t = .destroy
        · subst hdes
          cases hran
          have hno : .terminated ∉ s.ad.log := fun hx => by
            have := ih.gone hx
            rw [hg] at this
            cases this
          refine ⟨fun _ => rfl, fun _ => ?_, fun pre post hx => ?_⟩
          · show _ ∈ _ ++ [Note.terminated]
            simp
          · have hx : (s.ad.log ++ s.ad.table.map fun p => Note.finished p.2.call p.1 (failResult p.2.kind)) ++ [Note.terminated] =
              pre ++ .terminated :: post := hx
            rcases List.eq_nil_or_concat post with rfl | ⟨post', m, rfl⟩
            · intro n hn; cases hn
            · exfalso
              rw [List.concat_eq_append, ← List.cons_append, ← List.append_assoc] at hx
              have := (List.append_inj' hx rfl).1
              have hm : Note.terminated ∈ s.ad.log ++ s.ad.table.map fun p => Note.finished p.2.call p.1 (failResult p.2.kind) := by
                rw [this]; simp
              rcases List.mem_append.1 hm with hm | hm
              · exact hno hm
              · obtain ⟨_, _, hm⟩ := List.mem_map.1 hm
                cases hm
        · rcases ran_goes hran with hgo | hgo
          · exact ih'.goes hg hgo (ran_gone hran hg hdes)
          · have := ran_gone hran hg hdes
            rw [hgo] at this
            cases this
      | client e c hstep _ => exact ih.goes hg (react_goes s c) ((react_same s c).gone.trans hg)

/-! ## A `disconnect()` that is not answered -/

/-- The client has nothing to do, and a `disconnect()` waits for it. -/
structure Stuck (i : Nat) (s : Sys) : Prop where
  client : Client5.AtRest s.client.ctl
  state : s.ad.state = .stayDisconnected
  onDisconnect : s.ad.onDisconnect = some i
  tasks : ∀ t ∈ s.ad.tasks, t.isConnect = false

theorem onEvent_rest {a : Adapter} {e : LEvent} (hs : a.state = .stayDisconnected) (he : e.ends = true) : a.onEvent e = a := by
  unfold Adapter.onEvent
  cases e with
  | attempting => cases he
  | success => cases he
  | stopped => cases he
  | failure e =>
    dsimp only
    split
    · rfl
    · rw [hs]
  | disconnection e =>
    dsimp only
    rw [hs]
    rfl

theorem overlook_rest {a : Adapter} {e : LEvent} (he : e.ends = true) : a.overlook e = a := by
  cases e <;> first | cases he; done | rfl

theorem Stuck.react {i : Nat} {s : Sys} (h : Stuck i s) {c : Client} (hl : Life s.client.ctl c.ctl) : Stuck i (s.react c) := by
  obtain ⟨h1, new, h2, h3⟩ := h.client.life hl
  have ht : ∀ t ∈ (s.react c).ad.tasks, t.isConnect = false := by rw [(react_same s c).tasks]; exact h.tasks
  have hf : new.foldl (if s.ad.attached then Adapter.onEvent else Adapter.overlook) s.ad = s.ad := by
    refine fold_keep (P := fun a => a = s.ad) new (fun a x hx ha => ?_) rfl
    subst ha
    split
    · exact onEvent_rest h.state (h3 x hx)
    · exact overlook_rest (h3 x hx)
  have hp : (s.react c).ad.state = s.ad.state ∧ (s.react c).ad.onDisconnect = s.ad.onDisconnect := by
    unfold Sys.react
    rw [h2, List.drop_left, hf]
    obtain ⟨k1, _, k3⟩ := effects_parts (c.ops.log.drop s.client.ops.log.length) s.ad
    exact ⟨k1, k3⟩
  exact ⟨h1, hp.1.trans h.state, hp.2.trans h.onDisconnect, ht⟩

theorem Stuck.counts {i : Nat} {s : Sys} (h : Stuck i s) {a : Adapter} (hc : Counts s.ad a)
    (ht : ∀ t ∈ a.tasks, t.isConnect = false) : Stuck i { s with ad := a } :=
  ⟨h.client, hc.state.trans h.state, hc.onDisconnect.trans h.onDisconnect, ht⟩

theorem final_tasks {a a' : Adapter} (h : ∀ t ∈ a.tasks, t.isConnect = false)
    (hn : ∃ new, a'.tasks = a.tasks ++ new ∧ ∀ t ∈ new, t.final = true) : ∀ t ∈ a'.tasks, t.isConnect = false := by
  obtain ⟨new, h1, h2⟩ := hn
  intro t ht
  rw [h1] at ht
  rcases List.mem_append.1 ht with ht | ht
  · exact h t ht
  · have := h2 t ht
    cases t <;> first | rfl | cases this

theorem Stuck.ran {i : Nat} {s s' : Sys} {t : Task} (h : Stuck i s) (ht : t.isConnect = false) (hran : Ran s t s') :
    Stuck i s' := by
  cases hran with
  | attach =>
    have h0 : Stuck i { s with ad := { s.ad with attached := true } } := ⟨h.client, h.state, h.onDisconnect, h.tasks⟩
    exact h0.counts (releaseListener_counts _) (final_tasks h0.tasks (releaseListener_tasks _))
  | detach =>
    have h0 : Stuck i { s with ad := { s.ad with attached := false } } := ⟨h.client, h.state, h.onDisconnect, h.tasks⟩
    exact h0.counts (releaseInternal_counts _) (final_tasks h0.tasks (releaseInternal_tasks _))
  | connect j o => cases ht
  | disconnect j =>
    have h0 : Stuck i (s.disconnectTask j) := by
      rw [disconnectTask_idle h.state]
      exact ⟨h.client, h.state, h.onDisconnect, h.tasks⟩
    exact h0.counts (releaseInternal_counts _) (final_tasks h0.tasks (releaseInternal_tasks _))
  | submit id s1 hsub =>
    have h0 : Stuck i s1 := by
      cases hsub with
      | ended op r _ => exact ⟨h.client, h.state, h.onDisconnect, h.tasks⟩
      | sent op op' set p _ _ _ _ =>
        unfold Sys.submitOp
        refine Stuck.react (s := Sys.mk s.cfg s.client _) ?_ (.soft (.submitted s.cfg s.client p))
        exact ⟨h.client, h.state, h.onDisconnect, h.tasks⟩
    exact h0.counts (releaseInternal_counts _) (final_tasks h0.tasks (releaseInternal_tasks _))
  | destroy => exact ⟨h.client, h.state, h.onDisconnect, h.tasks⟩

theorem Stuck.did {i : Nat} {s s' : Sys} {e : Event} (h : Stuck i s) (he : Enabled s e) (ha : NoStart s e) (hd : Did s e s') :
    Stuck i s' := by
  have snoc : ∀ t : Task, t.isConnect = false → ∀ x ∈ s.ad.tasks ++ [t], x.isConnect = false := by
    intro t ht x hx
    rcases List.mem_append.1 hx with hx | hx
    · exact h.tasks x hx
    · rw [List.mem_singleton.1 hx]; exact ht
  cases hd with
  | refused => exact h
  | connect o _ _ => exact ha.elim
  | disconnect => exact ⟨h.client, h.state, h.onDisconnect, snoc (.disconnect s.ad.calls) rfl⟩
  | add _ k _ _ =>
    unfold Adapter.add
    split
    · exact ⟨h.client, h.state, h.onDisconnect, h.tasks⟩
    · rename_i id _
      exact ⟨h.client, h.state, h.onDisconnect, snoc (.submit id) rfl⟩
  | acquire => exact ⟨h.client, h.state, h.onDisconnect, h.tasks⟩
  | release => exact h.counts (release_counts s.ad) (final_tasks h.tasks (release_tasks s.ad))
  | run t ts _ ht hrun =>
    obtain ⟨_, hran⟩ := runTask_ran hrun
    refine Stuck.ran (s := { s with ad := { s.ad with tasks := ts } }) ⟨h.client, h.state, h.onDisconnect, fun x hx => ?_⟩ ?_ hran
    · exact h.tasks x (by rw [ht]; exact List.mem_cons_of_mem _ hx)
    · exact h.tasks t (by rw [ht]; exact List.mem_cons_self ..)
  | client e c hstep _ =>
    exact h.react (Client5.step_life hstep he.1 (fun d v hx => by subst hx; exact ha.elim)
      (fun hr => by subst hr; exact he.2.elim))

theorem Stuck.follows {i : Nat} {s s' : Sys} (h : Stuck i s) (hf : Follows NoStart s s') : Stuck i s' := by
  induction hf with
  | refl => exact h
  | step _ he ha hs ih => exact ih.did he ha (step_did hs)

/-- It has not been answered. -/
theorem Stuck.silent {i : Nat} {s : Sys} (h : Stuck i s) (hr : Reachable s) : .disconnectDone i ∉ s.ad.log := by
  intro hx
  have hl := reachable_ledger hr
  have h1 := hl.dis i
  have h2 := asksDisconnect_le hl.numbered i
  have h3 := countP_pos (p := Note.answersDisconnect i) hx (by simp [Note.answersDisconnect])
  unfold disBal stored at h1
  rw [h.onDisconnect, if_pos rfl] at h1
  unfold tally at h1 h2
  omega

end Mqtt.Adapter
