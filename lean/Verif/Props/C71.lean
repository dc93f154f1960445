import Verif.Lemmas.AdapterSubs
import Verif.Lemmas.AdapterRun

/-! C71: adapter: publishes that arrive go to the handlers of the subscriptions in effect, and user data is cleaned up
when it is no longer used. -/
namespace Mqtt.Props
open Mqtt.Adapter Mqtt.Spec Mqtt.SubscriptionSet

variable {s : Sys}

/-- Of the operations accepted, `done` have been acted upon, in the order in which they were accepted; the others wait for
their tasks. -/
structure ActedUpon (s : Sys) (done todo : List Kind) : Prop where
  accepted : kinds s.ad.log = done ++ todo
  waiting : todo.length = (submits s.ad.tasks).length

/-- The subscriptions that some operations lead to: the last one accepted decides. -/
def subscribed (done : List Kind) : Bytes → Option Entry := setMapRun (done.flatMap Kind.asksSet)

/-- The user data handed over with them that is to be cleaned up. -/
def handedOver (done : List Kind) : List Nat := (done.flatMap Kind.asksSet).flatMap setInserted

theorem acted_upon {done todo : List Kind} {ops : List SetOp} {set : SubSet} (h : SubsInv s done todo ops set) :
    ActedUpon s done todo :=
  ⟨h.kinds, by have := congrArg List.length h.waiting; simpa using this.symm⟩

/-- The subscriptions of the connection are those that the operations acted upon ask for. A resubscribe changes nothing. -/
theorem C71_set (h : Adapter.Reachable s) (hg : .terminated ∉ s.ad.log) : ∃ done todo, ActedUpon s done todo ∧
    (∀ f e, (f, e) ∈ getSubscriptions s.ad.subs ↔ subscribed done f = some e) ∧
    ((getSubscriptions s.ad.subs).map (·.1)).Nodup := by
  obtain ⟨done, todo, ops, set, hi⟩ := reachable_follow h
  refine ⟨done, todo, acted_upon hi, ?_⟩
  have hgone : s.ad.gone = false := by
    cases hg' : s.ad.gone with
    | false => rfl
    | true => exact absurd ((reachable_final h).told hg') hg
  obtain ⟨s1, h1, _, _, h4, h5⟩ := C13_lookup ops hi.leads.legal
  rw [hi.leads.run] at h1
  cases h1
  have hs := hi.subs
  rw [hgone] at hs
  rw [show s.ad.subs = set from hs]
  refine ⟨fun f e => ?_, h5⟩
  rw [h4, hi.leads.map]
  rfl

theorem perm_by_keys {α β κ : Type} [DecidableEq κ] (key : β → κ) (g : β → List α) (fs : List β) (hn : (fs.map key).Nodup) :
    ∀ l : List (κ × α), (∀ f ∈ fs, l.filter (fun c => c.1 = key f) = (g f).map fun c => (key f, c)) →
      (∀ c ∈ l, ∃ f ∈ fs, c.1 = key f) → l.Perm (fs.flatMap fun f => (g f).map fun c => (key f, c)) := by
  induction fs with
  | nil =>
    intro l _ h2
    cases l with
    | nil => exact .refl _
    | cons c l => obtain ⟨f, hf, _⟩ := h2 c (by simp); cases hf
  | cons f fs ih =>
    intro l h1 h2
    rw [List.map_cons, List.nodup_cons] at hn
    rw [List.flatMap_cons, ← h1 f (by simp)]
    refine (List.filter_append_perm (fun c : κ × α => decide (c.1 = key f)) l).symm.trans (List.Perm.append_left _ ?_)
    refine ih hn.2 _ (fun f' hf' => ?_) (fun c hc => ?_)
    · rw [List.filter_filter, ← h1 f' (by simp [hf'])]
      refine List.filter_congr fun c _ => ?_
      by_cases hc : c.1 = key f'
      · have : key f' ≠ key f := fun hx => hn.1 (by rw [← hx]; exact List.mem_map_of_mem hf')
        simp [hc, this]
      · simp [hc]
    · rw [List.mem_filter] at hc
      obtain ⟨f', hf', he⟩ := h2 c hc.1
      rcases List.mem_cons.1 hf' with rfl | hf'
      · simp [he] at hc
      · exact ⟨f', hf', he⟩

/-- When a publish arrives on a topic without wildcard characters, handlers are called for each filter that is subscribed
and matches the topic by MQTT's rules, once and with its user data, and for nothing else. -/
theorem C71_dispatch {s' : Sys} {e : Event} (h : Adapter.Reachable s) (he : Adapter.Enabled s e)
    (hs : Adapter.step s e = .ok s') {new : List Note} (hnew : s'.ad.log = s.ad.log ++ new) {v : V5.PublishView}
    {hs' : List (Nat × Option Nat)} (hp : .published v hs' ∈ new) (h43 : (43 : UInt8) ∉ v.topic) (h35 : (35 : UInt8) ∉ v.topic) :
    ∃ done todo, ActedUpon s' done todo ∧ ∃ fs : List Bytes, fs.Nodup ∧
      (∀ f, f ∈ fs ↔ (subscribed done f).isSome ∧ ∃ ls ts, Levels f ls ∧ Levels v.topic ts ∧ Matches ls ts) ∧
      hs'.Perm (fs.flatMap fun f => (subscribed done f).toList.flatMap handlerCall) := by
  have hr : Adapter.Reachable s' := .step h he trivial hs
  obtain ⟨done, todo, ops, set, hi⟩ := reachable_follow hr
  obtain ⟨new', hn', hall⟩ := published_did (step_did hs)
  have : new' = new := List.append_cancel_left (hn'.symm.trans hnew)
  subst this
  obtain ⟨hh, hgone⟩ := hall v hs' hp
  have hgone : s'.ad.gone = false := by simpa using hgone
  have hsub := hi.subs
  rw [hgone] at hsub
  rw [show s'.ad.subs = set from hsub] at hh
  refine ⟨done, todo, acted_upon hi, ?_⟩
  obtain ⟨s1, h1, h2⟩ := C13_dispatch ops hi.leads.legal
  rw [hi.leads.run] at h1
  cases h1
  obtain ⟨h2, h3⟩ := h2 v.topic h43 h35
  obtain ⟨s1, h1, _, _, h4, h5⟩ := C13_lookup ops hi.leads.legal
  rw [hi.leads.run] at h1
  cases h1
  have hmap : ∀ f, setMapRun ops f = subscribed done f := fun f => by rw [hi.leads.map]; rfl
  classical
  have hmem : ∀ f, f ∈ ((getSubscriptions set).map (·.1)).filter (fun f => decide (Matches (split 47 f) (split 47 v.topic))) ↔
      (subscribed done f).isSome ∧ ∃ ls ts, Levels f ls ∧ Levels v.topic ts ∧ Matches ls ts := by
    intro f
    rw [List.mem_filter, List.mem_map]
    constructor
    · rintro ⟨⟨⟨f', e⟩, h6, rfl⟩, h7⟩
      refine ⟨by rw [← hmap, (h4 _ e).1 h6]; rfl, _, _, split_levels _, split_levels _, by simpa using h7⟩
    · rintro ⟨h6, ls, ts, h7, h8, h9⟩
      rw [split_of_levels h7, split_of_levels h8]
      rw [← hmap] at h6
      obtain ⟨e, h6⟩ := Option.isSome_iff_exists.1 h6
      exact ⟨⟨(f, e), (h4 f e).2 h6, rfl⟩, by simpa using h9⟩
  have hnd : (((getSubscriptions set).map (·.1)).filter (fun f => decide (Matches (split 47 f) (split 47 v.topic)))).Nodup :=
    List.Pairwise.filter _ h5
  refine ⟨_, hnd, hmem, ?_⟩
  rw [hh]
  generalize hfs : ((getSubscriptions set).map (·.1)).filter (fun f => decide (Matches (split 47 f) (split 47 v.topic))) = fs
    at hmem hnd ⊢
  have hkeys : (fs.map (split 47)).Nodup :=
    List.Pairwise.map (R := (· ≠ ·)) _ (fun _ _ hx hy => hx (split_inj hy)) hnd
  have := perm_by_keys (split 47) (fun f => (subscribed done f).toList.flatMap handlerCall)
    fs hkeys (SubscriptionSet.publish set v.topic)
    (fun f hf => by
      obtain ⟨_, ls, ts, h6, h7, h8⟩ := (hmem f).1 hf
      have := h2 f ls ts h6 h7
      rw [if_pos h8] at this
      rw [split_of_levels h6, this, hmap])
    (fun c hc => by
      obtain ⟨f, h6, h7⟩ := h3 c hc
      refine ⟨f, (hmem f).2 ⟨by rw [← hmap]; exact h7, c.1, _, h6, split_levels _, ?_⟩, (split_of_levels h6).symm⟩
      have h8 := h2 f c.1 _ h6 (split_levels _)
      refine Classical.byContradiction fun hx => ?_
      rw [if_neg hx] at h8
      have : c ∈ (SubscriptionSet.publish set v.topic).filter (fun d => d.1 = c.1) := List.mem_filter.2 ⟨hc, by simp⟩
      rw [h8] at this
      cases this)
  have := this.map fun c => c.2
  rw [List.map_flatMap] at this
  simpa [List.map_map, Function.comp_def, handlersFor] using this

/-- A publish of which the callbacks are told. -/
def told? : Note → Option V5.PublishView
  | .published v _ => some v
  | _ => none

/-- A publish that the MQTT 5 client hands to its callbacks. -/
def delivered? : Client5.Effect → Option V5.PublishView
  | .delivered v _ => some v
  | _ => none

/-- While the user holds a reference, and once the adapter's callbacks have been registered with the client, every publish
that the client receives is handed on, in the same order. -/
theorem C71_arrives {s' : Sys} {e : Client5.Event} (h : Adapter.Reachable s) (hx : s.ad.external > 0)
    (hat : .attach ∉ s.ad.tasks) (he : Adapter.Enabled s (.client e)) (hs : Adapter.step s (.client e) = .ok s') :
    ∃ new effects, s'.ad.log = s.ad.log ++ new ∧ s'.client.ops.log = s.client.ops.log ++ effects ∧
      new.filterMap told? = effects.filterMap delivered? := by
  have hatt : s.ad.attached = true := by
    cases (reachable_good h).refs with
    | fresh ts e1 => rw [e1] at hat; simp at hat
    | live _ e2 => exact e2
    | dying _ _ _ e3 => exact e3
    | dead _ _ _ e => omega
    | gone _ _ _ e => omega
  simp only [Adapter.step] at hs
  split at hs
  · cases hs
  rename_i c hc
  split at hs
  · cases hs
  cases hs
  obtain ⟨effects, hl⟩ := Client5.step_log he.1 hc
  have events : ∀ (l : List Client5.LEvent) (a : Adapter), a.attached = true → ∃ new,
      (l.foldl Adapter.onEvent a).log = a.log ++ new ∧ new.filterMap told? = [] ∧ (l.foldl Adapter.onEvent a).attached = true := by
    intro l
    induction l with
    | nil => exact fun a ha => ⟨[], by simp, rfl, ha⟩
    | cons e l ih =>
      intro a ha
      obtain ⟨n1, h1, h2⟩ := onEvent_adds (fun _ _ => False) a e
      obtain ⟨n2, h3, h4, h5⟩ := ih (a.onEvent e) ((onEvent_same a e).attached.trans ha)
      refine ⟨n1 ++ n2, by rw [List.foldl_cons, h3, h1, List.append_assoc], ?_, h5⟩
      rw [List.filterMap_append, h4, List.append_nil]
      refine List.filterMap_eq_nil_iff.2 fun n hn => ?_
      cases n with
      | published v hs => exact (h2 v hs hn).elim
      | _ => rfl
  have effs : ∀ (l : List Client5.Effect) (a : Adapter), a.attached = true → ∃ new,
      (l.foldl Adapter.onEffect a).log = a.log ++ new ∧ new.filterMap told? = l.filterMap delivered? := by
    intro l
    induction l with
    | nil => exact fun a ha => ⟨[], by simp, rfl⟩
    | cons e l ih =>
      intro a ha
      have one : ∃ n1, (a.onEffect e).log = a.log ++ n1 ∧ n1.filterMap told? = (delivered? e).toList ∧
          (a.onEffect e).attached = true := by
        cases e with
        | completed u p er ack =>
          simp only [Adapter.onEffect, Adapter.onCompleted]
          split
          · exact ⟨[], by simp, rfl, ha⟩
          · exact ⟨[_], rfl, rfl, ha⟩
        | delivered v o =>
          simp only [Adapter.onEffect, ha, if_true]
          exact ⟨[_], rfl, rfl, ha⟩
        | _ => exact ⟨[], by simp [Adapter.onEffect], rfl, ha⟩
      obtain ⟨n1, h1, h2, h3⟩ := one
      obtain ⟨n2, h4, h5⟩ := ih _ h3
      refine ⟨n1 ++ n2, by rw [List.foldl_cons, h4, h1, List.append_assoc], ?_⟩
      rw [List.filterMap_append, h2, h5, List.filterMap_cons]
      cases delivered? e <;> rfl
  unfold Sys.react
  rw [hatt, hl, List.drop_append_of_le_length (Nat.le_refl _), List.drop_length]
  dsimp only [if_true, List.nil_append]
  obtain ⟨n1, h1, h2, h3⟩ := events (c.ctl.events.drop s.client.ctl.events.length) s.ad hatt
  obtain ⟨n2, h4, h5⟩ := effs effects _ h3
  refine ⟨n1 ++ n2, effects, ?_, rfl, by rw [List.filterMap_append, h2, h5]; rfl⟩
  rw [if_pos rfl, h4, h1, List.append_assoc]

/-! ## Subscribing again -/

/-- When resubscribe_existing_topics() is acted upon, one SUBSCRIBE is submitted for what is subscribed then, each filter
once and with its QoS; or its callback is told at once that there is nothing, or that the client does not accept the
packet. -/
theorem C71_resubscribe {s' : Sys} {id : Nat} {ts : List Task} {done todo : List Kind} (h : Adapter.Reachable s)
    (hacc : ActedUpon s done (.resubscribe :: todo)) (ht : s.ad.tasks = .submit id :: ts) (hs : Adapter.step s .run = .ok s') :
    ∃ i subs, .accepted i id .resubscribe ∈ s.ad.log ∧ (subs.map V5.SubscriptionView.topicFilter).Nodup ∧
      (∀ x, x ∈ subs ↔ ∃ f e, subscribed done f = some e ∧ x = { topicFilter := f, qos := e.options }) ∧
      (subs = [] ∧ .finished i id { code := .noTopics } ∈ s'.ad.log ∨
        V5.newSubscribe { subscriptions := subs } = none ∧ .finished i id { code := .invalidOptions } ∈ s'.ad.log ∨
        ∃ u q effects, s'.client.ops.log = s.client.ops.log ++ effects ∧ .submitted u q ∈ effects ∧
          Client5.withPacketId q 0 = .subscribe { subscriptions := subs }) := by
  obtain ⟨done', todo', ops, set, hi⟩ := reachable_follow h
  have hlen : done.length = done'.length := by
    have h1 := congrArg List.length (hacc.accepted.symm.trans hi.kinds)
    have h2 := hacc.waiting.trans (acted_upon hi).waiting.symm
    simp only [List.length_append] at h1
    omega
  obtain ⟨h1, h2⟩ := List.append_inj (hacc.accepted.symm.trans hi.kinds) hlen
  subst h1 h2
  obtain ⟨op, hop, _⟩ := ((reachable_good h).table.queued id).1 (by rw [ht]; simp)
  obtain ⟨_, hk, _⟩ := hi.pop ht hop
  have hk : op.kind = .resubscribe := (List.cons.inj hk).1.symm
  have hgone : s.ad.gone = false := by
    cases hg : s.ad.gone with
    | false => rfl
    | true => have := (gone_parts h hg).1; rw [ht] at this; cases this
  have hsub := hi.subs
  rw [hgone] at hsub
  have hsub : s.ad.subs = set := hsub
  obtain ⟨s1, h4, _, _, h5, h6⟩ := C13_lookup ops hi.leads.legal
  rw [hi.leads.run] at h4
  cases h4
  obtain ⟨k, hk1, hk2⟩ := (reachable_stems h).named id op hop
  have hk3 : k = .resubscribe := by
    rcases hk2 with hk2 | ⟨h, _⟩
    · rw [← hk2, hk]
    · exact h
  subst hk3
  refine ⟨op.call, (subscribeView ((getSubscriptions s.ad.subs).map Request.ofEntry)).subscriptions, hk1, ?_, fun x => ?_, ?_⟩
  · rw [hsub]
    simpa [subscribeView, List.map_map, Function.comp_def, Request.ofEntry] using h6
  · rw [hsub]
    simp only [subscribeView, List.map_map, List.mem_map, Function.comp]
    constructor
    · rintro ⟨⟨f, e⟩, hm, rfl⟩
      exact ⟨f, e, by unfold subscribed; rw [← hi.leads.map]; exact (h5 f e).1 hm, rfl⟩
    · rintro ⟨f, e, hm, rfl⟩
      unfold subscribed at hm
      rw [← hi.leads.map] at hm
      exact ⟨(f, e), (h5 f e).2 hm, rfl⟩
  · simp only [Adapter.step, ht, Sys.runTask, hgone, Bool.false_eq_true, if_false, Sys.submitTask, hop, hk] at hs
    split at hs
    · cases hs
    rename_i s2 hs2
    cases hs
    dsimp only
    rw [(releaseInternal_counts _).log]
    split at hs2
    · rename_i h0
      cases hs2
      refine .inl ⟨?_, by simp [Adapter.finish, Adapter.note]⟩
      rw [List.eq_nil_of_length_eq_zero h0]
      rfl
    · split at hs2
      · rename_i hv
        cases hs2
        exact .inr (.inl ⟨hv, by simp [Adapter.finish, Adapter.note]⟩)
      · rename_i v hv
        unfold Sys.submitSubscribe at hs2
        split at hs2
        · cases hs2
        rename_i set' _
        cases hs2
        have := newSubscribe_eq hv
        subst this
        obtain ⟨q, new, hl, hq1, hq2⟩ :=
          submit_new s.cfg s.client (.subscribe (subscribeView ((getSubscriptions s.ad.subs).map Request.ofEntry)))
        exact .inr (.inr ⟨s.client.ops.nextUid, q, new, hl, hq1, hq2⟩)

/-! ## User data -/

theorem cleaned_count {done todo : List Kind} {ops : List SetOp} {set : SubSet} (hi : SubsInv s done todo ops set)
    (hn : .resubscribe ∉ kinds s.ad.log) (u : Nat) :
    s.ad.subs.cleaned.count (some u) +
      (if s.ad.gone then 0 else ((getSubscriptions s.ad.subs).flatMap fun e => setDisposal e.2).count u) =
        (handedOver done).count u := by
  have hd : .resubscribe ∉ done := fun hx => hn (by rw [hi.kinds]; simp [hx])
  obtain ⟨s1, h1, h2⟩ := C13_user_data ops hi.leads.legal
  rw [hi.leads.run] at h1
  cases h1
  rw [hi.subs]
  unfold handedOver
  rw [← hi.leads.exact hd]
  cases s.ad.gone with
  | false => exact (h2 u).1
  | true => exact (h2 u).2

/-- If resubscribe_existing_topics() is not used, user data is not cleaned up while it belongs to a subscription: it has
been cleaned up less often than it was handed over. User data handed over once has not been cleaned up then. -/
theorem C71_alive_partial (h : Adapter.Reachable s) (hn : .resubscribe ∉ kinds s.ad.log) (hg : .terminated ∉ s.ad.log) :
    ∃ done todo, ActedUpon s done todo ∧ ∀ f e u, subscribed done f = some e → e.cleanup = true → e.userdata = some u →
      s.ad.subs.cleaned.count (some u) < (handedOver done).count u := by
  obtain ⟨done, todo, ops, set, hi⟩ := reachable_follow h
  refine ⟨done, todo, acted_upon hi, fun f e u h1 h2 h3 => ?_⟩
  have hgone : s.ad.gone = false := by
    cases hg' : s.ad.gone with
    | false => rfl
    | true => exact absurd ((reachable_final h).told hg') hg
  have hc := cleaned_count hi hn u
  obtain ⟨s1, h4, _, _, h5, _⟩ := C13_lookup ops hi.leads.legal
  rw [hi.leads.run] at h4
  cases h4
  have hs := hi.subs
  rw [hgone] at hs hc
  have hm : (f, e) ∈ getSubscriptions s.ad.subs := by
    rw [show s.ad.subs = set from hs, h5, hi.leads.map]
    exact h1
  have : 0 < ((getSubscriptions s.ad.subs).flatMap fun e => setDisposal e.2).count u :=
    List.count_pos_iff.2 (List.mem_flatMap.2 ⟨_, hm, by simp [setDisposal, h2, h3]⟩)
  simp only [Bool.false_eq_true, if_false] at hc
  omega

/-- Then all user data handed over is cleaned up by the time the connection is terminated, as often as it was handed over;
and what is cleaned up earlier no longer belongs to a subscription. -/
theorem C71_cleaned_partial (h : Adapter.Reachable s) (hn : .resubscribe ∉ kinds s.ad.log) :
    (∀ u, s.ad.subs.cleaned.count (some u) ≤ (handedOver (kinds s.ad.log)).count u) ∧
      (.terminated ∈ s.ad.log → ∀ u, s.ad.subs.cleaned.count (some u) = (handedOver (kinds s.ad.log)).count u) := by
  obtain ⟨done, todo, ops, set, hi⟩ := reachable_follow h
  have ha : handedOver (kinds s.ad.log) = handedOver done ++ handedOver todo := by
    rw [hi.kinds]
    simp [handedOver, List.flatMap_append]
  refine ⟨fun u => ?_, fun ht u => ?_⟩
  · have := cleaned_count hi hn u
    rw [ha, List.count_append]
    omega
  · have hgone := (reachable_final h).gone ht
    have hc := cleaned_count hi hn u
    have h0 : todo = [] := by
      have := (acted_upon hi).waiting
      rw [(gone_parts h hgone).1] at this
      exact List.eq_nil_of_length_eq_zero this
    rw [ha, h0, List.count_append, ← hc, hgone]
    simp [handedOver]

/-- A subscription with user data 7 to be cleaned up; then the topics are subscribed again, and a publish arrives. -/
def C71_resubscribed : List Event :=
  connected ++ [.subscribe [{ filter := [97], onPublish := some 3, cleanup := true, userdata := some 7 }] false, .run,
    .resubscribe, .run, .client (.packet (.publish { topic := [97], payload := [], qos := 0, retain := false }) false 2)]

/-- resubscribe_existing_topics() cleans up the user data of the subscriptions, which stay in effect: a handler is then
called with user data that has been cleaned up. -/
theorem C71_violated_used : ∃ s, ReachableIf Exclusive s ∧ handedOver (kinds s.ad.log) = [7] ∧
    s.ad.subs.cleaned = [some 7] ∧
    s.ad.log.getLast? = some (.published { topic := [97], payload := [], qos := 0, retain := false } [(3, some 7)]) := by
  obtain ⟨s, hr, ht⟩ := run_test (allow := Exclusive) (cfg := {}) (es := C71_resubscribed)
    (t := fun s => decide (handedOver (kinds s.ad.log) = [7] ∧ s.ad.subs.cleaned = [some 7] ∧
      s.ad.log.getLast? = some (.published { topic := [97], payload := [], qos := 0, retain := false } [(3, some 7)])))
    (by decide +kernel)
  exact ⟨s, hr, of_decide_eq_true ht⟩

/-- And it is cleaned up again at the end. -/
theorem C71_violated_twice : ∃ s, ReachableIf Exclusive s ∧ .terminated ∈ s.ad.log ∧ handedOver (kinds s.ad.log) = [7] ∧
    s.ad.subs.cleaned = [some 7, some 7] := by
  obtain ⟨s, hr, ht⟩ := run_test (allow := Exclusive) (cfg := {}) (es := C71_resubscribed ++ [.release, .run, .run])
    (t := fun s => decide (.terminated ∈ s.ad.log ∧ handedOver (kinds s.ad.log) = [7] ∧ s.ad.subs.cleaned = [some 7, some 7]))
    (by decide +kernel)
  exact ⟨s, hr, of_decide_eq_true ht⟩

/-- Two subscriptions that match, one that is replaced, one that is removed; a publish arrives; the end. -/
example : ∃ s, Adapter.Reachable s ∧ .resubscribe ∉ kinds s.ad.log ∧ .terminated ∈ s.ad.log ∧
    .published { topic := [97], payload := [], qos := 0, retain := false } [(4, some 8), (5, some 9)] ∈ s.ad.log ∧
    handedOver (kinds s.ad.log) = [7, 8, 9, 7] := by
  obtain ⟨s, hr, ht⟩ := run_test (allow := fun _ _ => True) (cfg := {})
    (es := connected ++ [.subscribe [{ filter := [97], onPublish := some 3, cleanup := true, userdata := some 7 },
        { filter := [97], onPublish := some 4, cleanup := true, userdata := some 8 },
        { filter := [43], onPublish := some 5, cleanup := true, userdata := some 9 },
        { filter := [97, 47, 35], onPublish := some 6, cleanup := true, userdata := some 7 }] true, .unsubscribe [97, 47, 35], .run, .run,
      .client (.packet (.publish { topic := [97], payload := [], qos := 0, retain := false }) false 2), .release, .run, .run])
    (t := fun s => decide (.resubscribe ∉ kinds s.ad.log ∧ .terminated ∈ s.ad.log ∧
      .published { topic := [97], payload := [], qos := 0, retain := false } [(4, some 8), (5, some 9)] ∈ s.ad.log ∧
      handedOver (kinds s.ad.log) = [7, 8, 9, 7])) (by decide +kernel)
  exact ⟨s, hr, of_decide_eq_true ht⟩

end Mqtt.Props
