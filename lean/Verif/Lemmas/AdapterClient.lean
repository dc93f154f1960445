import Verif.Lemmas.AdapterTable
import Verif.Lemmas.Client5Faults
import Verif.Lemmas.Client5Life

/-!
What holds of the client beneath the adapter, although the adapter changes its options.
-/
namespace Mqtt.Client5

open Mqtt.V5

/-- A client that has terminated was told to. -/
def Told (k : Control) : Prop := k.state = .terminated → k.desired = .terminated

theorem Soft.terminated {k k' : Control} (h : Soft k k') (ht : k'.state = .terminated) : k.state = .terminated := by
  rcases h.state with h | ⟨_, h | h⟩
  · rw [← h]; exact ht
  · rw [ht] at h; cases h
  · rw [ht] at h; cases h

theorem step_told {cfg : Config} {c c' : Client} {e : Event} (h : step cfg c e = .ok c') (he : Enabled c e)
    (ht : Told c.ctl) : Told c'.ctl := by
  intro hs
  by_cases hd : ∃ d v, e = .setDesired d v
  · obtain ⟨d, v, rfl⟩ := hd
    cases h
    exact absurd ((setDesired_soft c d v).terminated hs) he.1
  · by_cases hr : e = .resetConnection
    · subst hr
      cases h
      obtain ⟨⟨k, h1, h2⟩, _⟩ := resetConnection_soft c
      have h3 := h2.terminated hs
      refine absurd ?_ (show c.ctl.state ≠ .terminated from he)
      rcases h1 with rfl | rfl <;> exact h3
    · have hl := step_life h he (fun d v hx => hd ⟨d, v, hx⟩) hr
      cases hl with
      | soft h => rw [h.wants]; exact ht (h.terminated hs)
      | attempt _ _ _ _ _ _ h =>
        rcases h with ⟨_, h⟩ | ⟨_, _, h⟩ <;> rw [hs] at h <;> cases h
      | lost _ _ _ _ _ _ h => rw [hs] at h; cases h
      | stopped _ _ _ _ _ h => rw [hs] at h; cases h
      | opened _ _ _ _ _ h => rw [hs] at h; cases h
      | closing _ _ _ _ _ h => rw [hs] at h; cases h
      | connected _ _ _ _ _ h => rcases h with h | h | h <;> rw [hs] at h <;> cases h
      | terminated _ _ _ h _ _ _ => exact h

theorem reachable_told {cfg : Config} {c : Client} (h : Reachable cfg c) : Told c.ctl := by
  induction h with
  | new => intro h; cases h
  | step _ he h ih => exact step_told h he ih

/-- What reachable clients satisfy, whatever happens to their options between the events. -/
structure Sound (cfg : Config) (c : Client) : Prop where
  safe : SafeInv cfg c
  event : EventInv c.ctl
  told : Told c.ctl

theorem reachable_sound {cfg : Config} {c : Client} (h : Reachable cfg c) : Sound cfg c :=
  ⟨reachable_safe h, reachable_event h, reachable_told h⟩

theorem Sound.step {cfg : Config} {c c' : Client} {e : Event} (h : Sound cfg c) (he : Enabled c e)
    (hs : step cfg c e = .ok c') : Sound cfg c' := by
  have key : SafeInv cfg c' ∧ EventInv c'.ctl :=
    moves_inv (P := fun c => SafeInv cfg c ∧ EventInv c.ctl)
      (fun _ _ h m => ⟨safe_move h.1 m, event_move h.1.inv.live h.1.life h.2 m⟩) (step_moves he hs) ⟨h.safe, h.event⟩
  exact ⟨key.1, key.2, step_told hs he h.told⟩

/-- The options may change, except those for topic aliases. -/
theorem Sound.config {cfg cfg' : Config} {c : Client} (h : Sound cfg c) (ho : cfg'.outboundAliases = cfg.outboundAliases) :
    Sound cfg' c :=
  ⟨⟨h.safe.inv, h.safe.window, h.safe.flow, h.safe.life, h.safe.origin, h.safe.alias.fits, by
    unfold Agrees; rw [ho]; exact h.safe.alias.agrees⟩, h.event, h.told⟩

/-- The client id may change. -/
theorem Sound.clientId {cfg : Config} {c : Client} (h : Sound cfg c) (x : Bytes) :
    Sound cfg { c with ctl := { c.ctl with settings := { c.ctl.settings with clientId := x } } } :=
  ⟨⟨⟨⟨h.safe.inv.held.once, h.safe.inv.held.idle, h.safe.inv.held.ended⟩,
      ⟨h.safe.inv.live.up, h.safe.inv.live.down, h.safe.inv.live.cur, h.safe.inv.live.bare, h.safe.inv.live.tab,
        h.safe.inv.live.tmo, h.safe.inv.live.acked, h.safe.inv.live.plain, h.safe.inv.live.curId, h.safe.inv.live.ids,
        h.safe.inv.live.nonzero, h.safe.inv.live.next⟩,
      ⟨h.safe.inv.track.awaiting, h.safe.inv.track.flying, h.safe.inv.track.grounded⟩⟩,
    ⟨h.safe.window.maximum, h.safe.window.bound, h.safe.window.exact, h.safe.window.small⟩, h.safe.flow,
    ⟨h.safe.life.before, h.safe.life.after⟩, h.safe.origin, h.safe.alias.fits, h.safe.alias.agrees⟩,
   ⟨h.event.fits, h.event.rest, h.event.early, h.event.opened, h.event.slot, h.event.up⟩, h.told⟩

end Mqtt.Client5

namespace Mqtt.Adapter

open Mqtt.V5 Mqtt.SubscriptionSet
open Mqtt.Client5 (Config Client LEvent Effect Fault Desired Sound)

/-- What holds of the adapter and of the client beneath it. -/
structure Good (s : Sys) : Prop where
  table : TableInv s
  refs : Refs s.ad
  client : Sound s.cfg s.client
  alive : s.ad.gone = false → s.client.ctl.desired ≠ .terminated

/-- The client is sound and may be used by the adapter. -/
def Usable (s : Sys) : Prop := Sound s.cfg s.client ∧ s.client.ctl.desired ≠ .terminated

theorem Usable.state {s : Sys} (h : Usable s) : s.client.ctl.state ≠ .terminated := fun hx => h.2 (h.1.told hx)

theorem Usable.connectTask {s : Sys} (h : Usable s) (j : Nat) (o : ConnectOptions) : Usable (s.connectTask j o) := by
  by_cases hs : s.ad.state = .stayDisconnected
  · rw [connectTask_start hs]
    have h1 : Sound (updateConfig s.cfg o) (updateSettings s.client o) := (h.1.config (cfg' := updateConfig s.cfg o) rfl).clientId o.clientId
    have h2 := h1.step (e := .resetConnection) (c' := (updateSettings s.client o).resetConnection) h.state rfl
    have hd : (updateSettings s.client o).resetConnection.ctl.desired = s.client.ctl.desired := by
      obtain ⟨⟨k, hk, hsoft⟩, _⟩ := Client5.resetConnection_soft (updateSettings s.client o)
      rw [hsoft.wants]
      rcases hk with rfl | rfl <;> rfl
    have hst : (updateSettings s.client o).resetConnection.ctl.state ≠ .terminated := fun hx => by
      have := h2.told hx
      rw [hd] at this
      exact h.2 this
    have h3 := h2.step (e := .setDesired .connected none) (c' := connectClient s.client o)
      ⟨hst, by rw [hd]; exact h.2, fun _ => rfl⟩ rfl
    refine ⟨h3, ?_⟩
    unfold connectClient
    rw [Client5.setDesired_none]
    intro hx; cases hx
  · rw [connectTask_refuse hs]
    exact h

theorem Usable.disconnectTask {s : Sys} (h : Usable s) (j : Nat) : Usable (s.disconnectTask j) := by
  by_cases hs : s.ad.state = .stayDisconnected
  · rw [disconnectTask_idle hs]
    exact h
  · by_cases hd : s.client.ctl.desired = .stopped
    · rw [disconnectTask_stopped hs hd]
      exact h
    · rw [disconnectTask_stop hs hd]
      refine ⟨h.1.step (e := .setDesired .stopped none) (c' := s.client.setDesired .stopped none)
        ⟨h.state, h.2, fun _ => rfl⟩ rfl, ?_⟩
      show (s.client.setDesired .stopped none).ctl.desired ≠ _
      rw [Client5.setDesired_none]
      intro hx; cases hx

theorem Usable.submit {s : Sys} (h : Usable s) {p : Outgoing} (hu : Client5.isUser p = true)
    (hp : Client5.Enabled.Submittable p) (a : Adapter) :
    Usable { s with client := s.client.submit s.cfg p 0 false, ad := a } := by
  refine ⟨h.1.step (e := .submit p 0 false) (c' := s.client.submit s.cfg p 0 false)
    ⟨hu, hp, fun hx => absurd hx h.state⟩ rfl, ?_⟩
  show (s.client.submit s.cfg p 0 false).ctl.desired ≠ _
  rw [Client5.submit_ctl]
  exact h.2

theorem Good.usable {s : Sys} (h : Good s) (hg : s.ad.gone = false) : Usable s := ⟨h.client, h.alive hg⟩

theorem ran_usable {s s' : Sys} {t : Task} {ts : List Task} (h : Good s) (hg : s.ad.gone = false)
    (hran : Ran { s with ad := { s.ad with tasks := ts } } t s') : Usable s' := by
  have hu : Usable { s with ad := { s.ad with tasks := ts } } := h.usable hg
  cases hran with
  | attach => exact hu
  | detach => exact hu
  | connect j o => exact hu.connectTask j o
  | disconnect j => exact hu.disconnectTask j
  | submit id s1 hsub =>
    cases hsub with
    | ended op r hop => exact hu
    | sent op op' set p hop _ hok _ =>
      obtain ⟨h1, h2, _⟩ := hok (h.table.ok _ _ hop) (h.table.subs hg).valid
      exact hu.submit h1 h2 _
  | destroy => exact hu

theorem Good.did {s s' : Sys} {e : Event} (h : Good s) (he : Enabled s e) (hd : Did s e s') : Good s' := by
  have ht := h.table.did h.client.safe.inv.held h.refs he hd
  have hr := h.refs.did he hd
  have key : Sound s'.cfg s'.client ∧ (s'.ad.gone = false → s'.client.ctl.desired ≠ .terminated) := by
    cases hd with
    | refused => exact ⟨h.client, h.alive⟩
    | connect => exact ⟨h.client, h.alive⟩
    | disconnect => exact ⟨h.client, h.alive⟩
    | add _ k _ _ => exact ⟨h.client, fun hg => h.alive (by
        unfold Adapter.add at hg
        dsimp only at hg
        split at hg <;> exact hg)⟩
    | acquire => exact ⟨h.client, h.alive⟩
    | release => exact ⟨h.client, fun hg => h.alive ((release_counts s.ad).gone ▸ hg)⟩
    | run t ts _ ht' hrun =>
      obtain ⟨hg, hran⟩ := runTask_ran hrun
      have := ran_usable h hg hran
      exact ⟨this.1, fun _ => this.2⟩
    | client e c hstep _ =>
      refine ⟨h.client.step he.1 hstep, fun hg => ?_⟩
      have hg : s.ad.gone = false := (react_same s c).gone ▸ hg
      have hx := h.alive hg
      show c.ctl.desired ≠ .terminated
      by_cases h1 : ∃ d v, e = .setDesired d v
      · obtain ⟨d, v, rfl⟩ := h1
        cases hstep
        rw [(Client5.setDesired_soft s.client d v).wants]
        intro hd
        have := he.2 hd
        exact absurd this (by simp [‹s.ad.gone = false›])
      · have hl := Client5.step_life hstep he.1 (fun d v hx => h1 ⟨d, v, hx⟩) (fun hr => by
          subst hr; exact he.2.elim)
        cases hl with
        | soft h => rw [h.wants]; exact hx
        | attempt _ _ h => rw [h]; intro h; cases h
        | lost _ _ h => rw [h]; intro h; cases h
        | stopped _ _ h => rw [h]; exact hx
        | opened _ _ h => rw [h]; intro h; cases h
        | closing _ _ h => rw [h]; exact hx
        | connected _ _ h => rw [h]; exact hx
        | terminated _ _ h => exact absurd h hx
  exact ⟨ht, hr, key.1, key.2⟩

theorem reachable_good {allow : Sys → Event → Prop} {s : Sys} (h : ReachableIf allow s) : Good s := by
  refine reachable_induct (P := Good) (fun cfg c hc hd => ?_) (fun _ _ _ hl he _ hd => hl.did he hd) h
  refine ⟨⟨AMap.nodup_nil, fun _ _ h => (by cases h), fun _ _ h => (by cases h), ⟨Nat.le_refl 1, by show 1 ≤ 65535; decide⟩, fun id => ?_, fun id => ?_,
    fun _ _ _ h => (by cases h), fun _ _ _ _ _ h => (by cases h), fun _ _ _ h => (by cases h), fun _ => SetOk.new⟩,
    .fresh [] rfl (by simp) rfl rfl rfl rfl ⟨rfl, rfl, rfl⟩, Client5.reachable_sound hc, fun _ => hd⟩
  · exact ⟨fun h => by simp at h, fun ⟨_, h, _⟩ => by cases h⟩
  · show List.count _ [Task.attach] ≤ 1
    simp

/-! ## Faults -/

theorem validTopic_parts {t : Bytes} {b : Bool} (h : isValidTopicAux t b = true) :
    t.length ≠ 0 ∧ validUtf8Text t = true ∧ t.length ≤ 65535 := by
  unfold isValidTopicAux at h
  split at h
  · cases h
  · rename_i h1
    split at h
    · cases h
    · rename_i h2
      split at h
      · cases h
      · split at h
        · cases h
        · exact ⟨h1, by simpa using h2, by omega⟩

theorem newPublish_some {t p : Bytes} {q : Nat} {r : Bool} (hq : q ≤ 2) (ht : isValidTopic t = true) :
    newPublish (publishView t p q r) = some (publishView t p q r) := by
  obtain ⟨h1, h2, _⟩ := validTopic_parts ht
  unfold newPublish validatePublish
  simp [publishView, h1, h2, ht, validateUserProperties]
  omega

theorem newUnsubscribe_some {f : Bytes} (hf : isValidTopicFilter f = true) :
    newUnsubscribe { topicFilters := [f] } = some { topicFilters := [f] } := by
  obtain ⟨h1, h2, _⟩ := validTopic_parts hf
  unfold newUnsubscribe validateUnsubscribe
  simp [h2, hf, validateUserProperties]

/-- The faults of the adapter. -/
inductive Blame (s : Sys) : Event → Fault → Prop where
  /-- `connect()` reads through the pointer to the socket options without checking it (246). -/
  | socket (o : ConnectOptions) : o.valid = true → o.socketOptions = none → Blame s (.connect o) .ub
  /-- The client fails by itself. -/
  | client (e : Client5.Event) (f : Fault) : Client5.Cause s.cfg s.client e f → Blame s (.client e) f

theorem submitTask_ok {s : Sys} {id : Nat} {op : AOp} (hop : s.ad.table.get id = some op) (hk : KindOk op.kind)
    (hs : SetOk s.ad.subs) : ∃ s', s.submitTask id = .ok s' := by
  have sub : ∀ (rs : List Request) (v : SubscribeView) (op : AOp), (∀ r ∈ rs, isValidTopicFilter r.filter = true) →
      ∃ s', s.submitSubscribe id op rs v = .ok s' := by
    intro rs v op hr
    obtain ⟨set, h1, _⟩ := hs.addAll hr
    unfold Sys.submitSubscribe
    rw [h1]
    exact ⟨_, rfl⟩
  unfold Sys.submitTask
  rw [hop]
  dsimp only
  cases hkind : op.kind with
  | publish v => exact ⟨_, rfl⟩
  | subscribe rs v m =>
    rw [hkind] at hk
    exact sub rs v op hk.2
  | resubscribe =>
    dsimp only
    split
    · exact ⟨_, rfl⟩
    · split
      · exact ⟨_, rfl⟩
      · refine sub _ _ _ fun r hr => ?_
        obtain ⟨fe, hfe, rfl⟩ := List.mem_map.1 hr
        exact hs.valid fe.1 fe.2 hfe
  | unsubscribe f v =>
    dsimp only
    obtain ⟨set, h1, _⟩ := hs.remove f
    rw [h1]
    exact ⟨_, rfl⟩

theorem good_fault {s : Sys} {e : Event} {f : Fault} (h : Good s) (he : Enabled s e) (hf : step s e = .error f) :
    Blame s e f := by
  cases e with
  | connect o =>
    unfold step Sys.with Adapter.connect at hf
    by_cases hv : o.valid = true
    · by_cases hso : o.socketOptions = none
      · simp [hv, hso] at hf
        subst hf
        exact .socket o hv hso
      · simp [hv, hso] at hf
    · simp [hv] at hf
  | disconnect => cases hf
  | publish t p q r =>
    unfold step Sys.with Adapter.publish at hf
    dsimp only at hf
    by_cases hq : q > 2
    · simp [hq] at hf
    · by_cases ht : isValidTopic t = true
      · rw [if_neg hq, if_neg (by simp [ht]), newPublish_some (by omega) ht] at hf
        cases hf
      · simp [hq, ht] at hf
  | subscribe rs m => cases hf
  | resubscribe => cases hf
  | unsubscribe g =>
    unfold step Sys.with Adapter.unsubscribe at hf
    dsimp only at hf
    by_cases ht : isValidTopicFilter g = true
    · rw [if_neg (by simp [ht]), newUnsubscribe_some ht] at hf
      cases hf
    · simp [ht] at hf
  | acquire => cases hf
  | release => cases hf
  | run =>
    exfalso
    unfold step at hf
    cases htasks : s.ad.tasks with
    | nil => exact he htasks
    | cons t ts =>
      rw [htasks] at hf
      dsimp only at hf
      have hg : s.ad.gone = false := by
        cases h.refs with
        | fresh ts' _ _ _ h => exact h
        | live _ _ h => exact h
        | dying _ _ _ _ h => exact h
        | dead _ _ h => exact h
        | gone h => rw [h] at htasks; cases htasks
      unfold Sys.runTask at hf
      rw [if_neg (by simp [hg])] at hf
      cases t with
      | attach => cases hf
      | detach => cases hf
      | connect => cases hf
      | disconnect => cases hf
      | destroy => cases hf
      | submit id =>
        obtain ⟨op, hop, _⟩ := (h.table.queued id).1 (by rw [htasks]; exact List.mem_cons_self ..)
        obtain ⟨s', hs'⟩ := submitTask_ok (s := { s with ad := { s.ad with tasks := ts } }) hop (h.table.ok _ _ hop)
          (h.table.subs hg)
        dsimp only at hf
        rw [hs'] at hf
        cases hf
  | client e =>
    unfold step at hf
    dsimp only at hf
    cases hc : Client5.step s.cfg s.client e with
    | error f' =>
      rw [hc] at hf
      cases hf
      exact .client e f (Client5.safe_fault h.client.safe he.1 hc)
    | ok c =>
      rw [hc] at hf
      dsimp only at hf
      split at hf
      · rename_i hx
        exfalso
        obtain ⟨h1, h2⟩ := hx
        cases h.refs with
        | fresh ts' _ _ h => rw [h1] at h; cases h
        | live _ _ h => rw [h2] at h; cases h
        | dying _ _ _ _ h => rw [h2] at h; cases h
        | dead _ h => rw [h1] at h; cases h
        | gone _ h => rw [h1] at h; cases h
      · cases hf

end Mqtt.Adapter
