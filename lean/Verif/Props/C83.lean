import Verif.Lemmas.Subs311Log

/-!
C83: the subscriptions of an MQTT 3.1.1 connection.
-/
namespace Mqtt.Props
open Mqtt Mqtt.Spec Mqtt.TopicTree Mqtt.Subs311

/-- A filter is in the table as itself, a shared subscription as the filter it shares. -/
theorem C83_key (f : Bytes) :
    (∀ name g, Shared name g f → tableKey f = some g) ∧ (¬ LooksShared f → tableKey f = some f) :=
  ⟨fun _ _ h => tableKey_shared h, tableKey_plain⟩

/-- `$share/g/a` shares `a`. -/
example : Shared [103] [97] [36, 115, 104, 97, 114, 101, 47, 103, 47, 97] := ⟨rfl, by decide, by decide, by decide⟩

/-- Each SUBSCRIBE for a call of subscribe(), the first and those sent again, lists the filters of the call with their QoS. -/
theorem C83_sent {c : Conn} {log : List Entry} (h : Subs311.Reachable c log) {id : Nat} {gs : List (Option Bytes × Nat)}
    {fs : List (Bytes × Nat × Nat)} (hs : .sent id gs ∈ log) (hc : .called id (.subscribe fs) ∈ log) :
    gs = fs.map fun e => (some e.1, e.2.1) :=
  (reachable_log h).sent id gs fs hs ((reachable_log h).lookup _ _ hc)

/-- on_suback for a call of subscribe() lists the filters of the call in their order. -/
theorem C83_answered {c : Conn} {log : List Entry} (h : Subs311.Reachable c log) {id : Nat} {gs : List (Option Bytes × Nat)} {ok : Bool}
    {fs : List (Bytes × Nat × Nat)} (hs : .answered id gs ok ∈ log) (hc : .called id (.subscribe fs) ∈ log) :
    gs.map (·.1) = fs.map fun e => some e.1 :=
  (reachable_log h).answered id gs ok fs hs ((reachable_log h).lookup _ _ hc)

/-- Each UNSUBSCRIBE, the first and those sent again, names the filter of its call. -/
theorem C83_unsubscribe {c : Conn} {log : List Entry} (h : Subs311.Reachable c log) {id : Nat} {f : Bytes}
    (hs : .sentUnsubscribe id f ∈ log) : .called id (.unsubscribe f) ∈ log := by
  induction h with
  | init => cases hs
  | @step c log e h ha hen ih =>
    rcases List.mem_append.1 hs with hs | hs
    · exact List.mem_append_left _ (ih hs)
    · apply List.mem_append_left
      have ho := step_out (reachable_inv h ha) (reachable_ri h) hen
      generalize (Subs311.step c e).2 = out at ho hs
      cases ho with
      | called x _ => simp at hs
      | sent r gs nt _ hn _ _ =>
        rcases List.mem_cons.1 hs with hs | hs
        · cases hs
        · obtain ⟨u, e | e⟩ := hn _ hs <;> cases e
      | sentUnsubscribe r f' nt hm hn hk =>
        rcases List.mem_cons.1 hs with hs | hs
        · injection hs with h1 h2
          subst h1 h2
          exact called_mem_calls (lookup_mem' (((reachable_inv h ha).reqs r hm).unsub _ hk).1)
        · obtain ⟨u, e | e⟩ := hn _ hs <;> cases e
      | neutral _ hn _ _ => cases hn _ hs

theorem request_kind {c : Conn} {log : List Entry} (h : Subs311.Reachable c log) (ha : c.alive = true) {id : Nat} {r : Request} {x : Call}
    (hr : c.request id = some r) (hc : .called id x ∈ log) :
    match x with
    | .subscribe _ => r.kind = .subscribe
    | .resubscribe => r.kind = .resubscribe
    | .unsubscribe f => r.kind = .unsubscribe f := by
  obtain ⟨hm, hid⟩ := request_mem hr
  have hl := (reachable_log h).lookup _ _ hc
  rw [← hid] at hl
  have hro := (reachable_inv h ha).reqs r hm
  cases hk : r.kind with
  | subscribe =>
    obtain ⟨fs, h1, _⟩ := hro.sub hk
    rw [h1] at hl; injection hl with hl; subst hl; rfl
  | resubscribe =>
    rw [(hro.resub hk).1] at hl; injection hl with hl; subst hl; rfl
  | unsubscribe f =>
    rw [(hro.unsub f hk).1] at hl; injection hl with hl; subst hl; rfl

/-- SUBACK for a call of subscribe(): with one code for each filter, on_suback reports each filter with its code; with another
number of codes it is a protocol error. -/
theorem C83_suback {c : Conn} {log : List Entry} (h : Subs311.Reachable c log) (ha : c.alive = true) {id : Nat} {codes : List Nat}
    {fs : List (Bytes × Nat × Nat)} (hc : .called id (.subscribe fs) ∈ log) (hen : Enabled c (.suback id codes)) :
    (codes.length = fs.length → ∃ rest, (Subs311.step c (.suback id codes)).2 =
      .answered id (fs.zipWith (fun e q => (some e.1, q)) codes) true :: rest) ∧
    (codes.length ≠ fs.length → (Subs311.step c (.suback id codes)).2 = [.protocolError id]) := by
  obtain ⟨r, hr, _⟩ := hen
  have hk : r.kind = .subscribe := request_kind h ha hr hc
  obtain ⟨hm, hid⟩ := request_mem hr
  obtain ⟨fs', hl, ht, _⟩ := ((reachable_inv h ha).reqs r hm).sub hk
  rw [hid, (reachable_log h).lookup _ _ hc] at hl
  injection hl with hl
  injection hl with hl
  subst hl
  have hlen : r.topics.length = fs.length := by rw [ht, List.length_map]
  simp only [Subs311.step, hr]
  unfold Conn.suback
  constructor
  · intro he
    rw [if_neg (by omega)]
    unfold Conn.complete Conn.finish
    simp only [hk]
    rw [zipWith_fst _ _ _ (by omega), hid]
    have : (readTopics c.table r.topics).zipWith (fun e q => (e.1, q)) codes = fs.zipWith (fun e q => (some e.1, q)) codes := by
      rw [ht]; unfold readTopics; rw [List.map_map, List.zipWith_map_left]; rfl
    rw [this]
    exact ⟨_, rfl⟩
  · intro he
    rw [if_pos (by omega), hid]

theorem count_calls (calls : List (Path × TopicTree.Sub)) (u : Nat) (p : Path)
    (h : ∀ e ∈ calls, e.2.userdata = some u → e.1 = p) :
    (calls.filterMap (·.2.userdata)).count u ≤ (calls.filter (fun e => e.1 = p)).length := by
  induction calls with
  | nil => exact Nat.le_refl _
  | cons e calls ih =>
    have ih := ih (fun x hx => h x (by simp [hx]))
    rw [List.filterMap_cons, List.filter_cons]
    cases hu : e.2.userdata with
    | none => simp only; split <;> simp <;> omega
    | some v =>
      simp only
      rw [List.count_cons]
      by_cases hv : v = u
      · subst hv
        rw [if_pos (by simp), if_pos (by simpa using h e (by simp) hu)]
        simp; omega
      · rw [if_neg (by simpa using hv)]
        split <;> simp <;> omega

/-- A message calls the on_publish of each subscription in effect that matches, once, and no other; nothing that was freed is
used and no callback is missing. What is missing: `parent/#` is not called for `parent` (C09). -/
theorem C83_delivered_partial {c : Conn} {log : List Entry} (h : Subs311.Reachable c log) (ha : c.alive = true) {topic : Bytes}
    (ht : isValidTopic topic = true) :
    ∃ uids, (Subs311.step c (.message topic)).2 = [.delivered topic uids] ∧
      (∀ f u q, (book tableKey log).subs f = some (u, q) → Matches (split 47 f) (split 47 topic) →
        ¬ ParentHash (split 47 f) (split 47 topic) → uids.count u = 1) ∧
      ∀ u ∈ uids, ∃ f q, (book tableKey log).subs f = some (u, q) ∧ Matches (split 47 f) (split 47 topic) := by
  have hi := reachable_inv h ha
  have hri := reachable_ri h
  obtain ⟨calls, h1, h2, _⟩ := ri_message hi hri ht
  obtain ⟨calls', k1, k2, k3⟩ := publish_calls hi ht
  rw [h1] at k1
  injection k1 with k1
  subst k1
  refine ⟨calls.filterMap (·.2.userdata), by rw [h2], ?_, ?_⟩
  · intro f u q hf hm hp
    have hw := noWild_of_topic ((C08_topic topic).1 ht)
    have hfil := k3 f
    rw [if_pos ((treeMatch_iff _ _ (hi.hash f (by rw [hf]; simp)) (split_ne_nil _ _) hw).2 ⟨hm, hp⟩), hf] at hfil
    have hmem : (split 47 f, toSub (u, q)) ∈ calls := by
      have : (split 47 f, toSub (u, q)) ∈ calls.filter (fun e => e.1 = split 47 f) := by rw [hfil]; simp
      exact (List.mem_filter.1 this).1
    have hle := count_calls calls u (split 47 f) (by
      intro e he hu
      obtain ⟨g, x, e1, e2, e3, _⟩ := k2 e he
      have hx : x.1 = u := by rw [e3] at hu; simpa [toSub] using hu
      have := one_filter h hf (g := g) (q' := x.2) (by rw [e2, ← hx])
      rw [this, e1])
    rw [hfil] at hle
    have hpos : 0 < (calls.filterMap (·.2.userdata)).count u :=
      List.count_pos_iff.2 (List.mem_filterMap.2 ⟨_, hmem, rfl⟩)
    simp at hle
    omega
  · intro u hu
    rw [List.mem_filterMap] at hu
    obtain ⟨e, he, hue⟩ := hu
    obtain ⟨f, x, _, e2, e3, e4⟩ := k2 e he
    have hx : x.1 = u := by rw [e3] at hue; simpa [toSub] using hue
    exact ⟨f, x.2, by rw [e2, ← hx], e4⟩

/-- resubscribe_existing_topics(): its first packet lists the subscriptions in effect, each once with its QoS; when there are
none, no packet is sent. Missing: shared subscriptions (`C83_violated_shared`), and histories in which the table uses freed
strings (C11). -/
theorem C83_resubscribe_partial {c : Conn} {log : List Entry} (h : Subs311.Reachable c log) (ha : c.alive = true)
    (htame : Tame tableKey log) (hns : NoShared log) {id : Nat} {pick : List Nat → Nat} {order : List (Nat × Nat)}
    (hc : .called id .resubscribe ∈ log) (hfirst : id ∉ (book some log).seen) (hen : Enabled c (.send id pick order true)) :
    ((∀ f, (book some log).subs f = none) → (Subs311.step c (.send id pick order true)).2 = []) ∧
    ((∃ f, (book some log).subs f ≠ none) → ∃ fs, (Subs311.step c (.send id pick order true)).2 = [.sent id fs] ∧
      (fs.map (·.1)).Nodup ∧ (∀ e ∈ fs, e.1 ≠ none) ∧
      ∀ f q, (some f, q) ∈ fs ↔ ∃ u, (book some log).subs f = some (u, q)) := by
  obtain ⟨r, hr, ho, _⟩ := hen
  have hk : r.kind = .resubscribe := request_kind h ha hr hc
  obtain ⟨hm, hid⟩ := request_mem hr
  have hi := reachable_inv h ha
  have hsi := reachable_si h ha htame
  have ho := ho hk
  rw [← book_noShared hns] at hfirst ⊢
  have hmem : ∀ f q, (some f, q) ∈ order.map (fun e => (readCursor c.table (.table e.1), e.2)) ↔
      ∃ u, (book tableKey log).subs f = some (u, q) := by
    intro f q
    rw [(ho.map _).mem_iff, found_mem hsi.sinv hi.tree.nodup, hi.rep]
    constructor
    · rintro ⟨s, hs, rfl⟩
      rw [Option.map_eq_some_iff] at hs
      obtain ⟨x, hx, rfl⟩ := hs
      exact ⟨x.1, hx⟩
    · rintro ⟨u, hu⟩
      exact ⟨toSub (u, q), by rw [hu]; rfl, rfl⟩
  obtain ⟨hnd, hnn⟩ := found_nodup hsi.sinv hi.tree.nodup
  have hread : ∀ e ∈ order, ∃ f, readCursor c.table (.table e.1) = some f := by
    intro e he
    have := hnn e (ho.mem_iff.1 he)
    cases hx : readCursor c.table (.table e.1) with
    | none => exact absurd hx this
    | some f => exact ⟨f, rfl⟩
  have hpk : r.packet = none := ((hi.reqs r hm).resub hk).2.1.2 (by rw [hid]; exact hfirst)
  simp only [Subs311.step, hr, hk]
  unfold Conn.sendResubscribe
  simp only
  constructor
  · intro hnone
    have hoe : order = [] := by
      cases order with
      | nil => rfl
      | cons e l =>
        exfalso
        obtain ⟨f, hf⟩ := hread e (by simp)
        obtain ⟨u, hu⟩ := (hmem f e.2).1 (by simp [hf])
        rw [hnone f] at hu
        cases hu
    rw [if_pos hoe]
    unfold Conn.complete Conn.finish
    simp [hk]
  · rintro ⟨f, hf⟩
    have hoe : order ≠ [] := by
      intro e
      cases hs : (book tableKey log).subs f with
      | none => exact hf hs
      | some x =>
        have := (hmem f x.2).2 ⟨x.1, hs⟩
        rw [e] at this
        cases this
    rw [if_neg hoe, if_pos trivial, hpk]
    have hfs : ((none : Option (List (Cursor × Nat))).getD
        ((order.map fun e => { cur := .table e.1, qos := e.2, uid := none : Topic }).map fun x => (x.cur, x.qos))).map
          (fun e => (readCursor c.table e.1, e.2)) = order.map (fun e => (readCursor c.table (.table e.1), e.2)) := by
      simp only [Option.getD_none, List.map_map]
      rfl
    refine ⟨order.map (fun e => (readCursor c.table (.table e.1), e.2)), by rw [hfs, hid], ?_, ?_, hmem⟩
    · rw [List.map_map]
      exact ((ho.map (fun e => readCursor c.table (.table e.1))).nodup_iff).2 hnd
    · intro e he
      rw [List.mem_map] at he
      obtain ⟨x, hx, rfl⟩ := he
      exact hnn x (ho.mem_iff.1 hx)

/-- SUBACK for resubscribe_existing_topics() whose packet was sent once, when no subscription was made or removed since: each
filter of the packet is reported with its code. Missing: packets sent again (`C83_violated_resend`), and changes in between
(`C83_violated_freed`). -/
theorem C83_resubscribed_partial {c : Conn} {log : List Entry} (h : Subs311.Reachable c log) (ha : c.alive = true)
    (htame : Tame tableKey log) {id : Nat} {codes : List Nat} {fs : List (Option Bytes × Nat)} {pre post : List Entry}
    (hlog : log = pre ++ .sent id fs :: post) (hc : .called id .resubscribe ∈ log) (hfirst : id ∉ (book tableKey pre).seen)
    (honce : ∀ gs, .sent id gs ∉ post) (hsame : (book tableKey log).updates = (book tableKey pre).updates)
    (hen : Enabled c (.suback id codes)) (hcodes : codes ≠ []) (hlen : codes.length = fs.length) :
    (Subs311.step c (.suback id codes)).2 = [.answered id (fs.zipWith (fun e q => (e.1, q)) codes) true] := by
  obtain ⟨r, hr, _⟩ := hen
  have hk : r.kind = .resubscribe := request_kind h ha hr hc
  obtain ⟨hm, hid⟩ := request_mem hr
  subst hid
  have hread := (reachable_si h ha htame).once r hm hk pre fs post hlog hfirst honce hsame
  have hl : r.topics.length = codes.length := by
    rw [hlen, ← hread]; simp [readTopics]
  simp only [Subs311.step, hr]
  unfold Conn.suback
  rw [if_neg (by simpa using hl)]
  unfold Conn.complete Conn.finish
  simp only [hk]
  rw [if_neg]
  · rw [zipWith_fst _ _ _ hl, hread]
  · intro e
    have := congrArg List.length e
    rw [List.length_zipWith, hl, Nat.min_self, List.length_nil, List.length_eq_zero_iff] at this
    exact hcodes this

/-! ### Concrete histories -/

private abbrev fa : Bytes := [97]
private abbrev fb : Bytes := [98]
private abbrev fs : Bytes := [36, 115, 104, 97, 114, 101, 47, 103, 47, 97]

theorem tame_snoc {key : Bytes → Option Bytes} {log : List Entry} {e : Entry} (h : Tame key log)
    (he : match (motive := Entry → Prop) e with
      | .sent id _ => TamePacket key (book key log) id
      | .sentUnsubscribe id _ => TamePacket key (book key log) id
      | _ => True) : Tame key (log ++ [e]) := by
  intro pre x post hx
  rcases List.append_eq_append_iff.1 hx with ⟨a, h1, h2⟩ | ⟨a, h1, h2⟩
  · cases a with
    | nil =>
      rw [List.append_nil] at h1
      rw [List.nil_append] at h2
      injection h2 with h2 _
      subst h1 h2
      cases e <;> exact he
    | cons y a => have := congrArg List.length h2; simp at this
  · cases a with
    | nil =>
      rw [List.append_nil] at h1
      rw [List.nil_append] at h2
      injection h2 with h2 _
      subst h1 h2
      cases x <;> exact he
    | cons y a =>
      injection h2 with h2 h3
      subst h2
      exact h pre x a h1

/-- `a` and `b` are subscribed, and resubscribed. -/
private def calm : List Entry := [.called 1 (.subscribe [(fa, 1, 0), (fb, 0, 1)]), .sent 1 [(some fa, 1), (some fb, 0)],
  .answered 1 [(some fa, 1), (some fb, 0)] true, .called 2 .resubscribe, .sent 2 [(some fb, 0), (some fa, 1)],
  .answered 2 [(some fb, 0), (some fa, 1)] true, .delivered fa [0]]

example : (∃ c, Subs311.Reachable c calm) ∧ Tame tableKey calm ∧ NoShared calm := by
  refine ⟨?_, ?_, ?_⟩
  · obtain ⟨c, _, h⟩ := played (xs := [.subscribe [(fa, 1), (fb, 0)], .send 1 true, .suback 1 [1, 0], .resubscribe, .send 2 true,
      .suback 2 [0, 1], .message fa]) (log := calm) (by decide +kernel)
    exact ⟨c, h⟩
  · have h0 : Tame tableKey [] := by intro pre e post h; simp at h
    refine tame_snoc (tame_snoc (tame_snoc (tame_snoc (tame_snoc (tame_snoc (tame_snoc h0 ?_) ?_) ?_) ?_) ?_) ?_) ?_ <;> simp only
    · intro _
      refine ⟨?_, ?_⟩
      · intro fs h
        have h : some (Call.subscribe [(fa, 1, 0), (fb, 0, 1)]) = some (.subscribe fs) := h
        injection h with h; injection h with h; subst h; decide
      · intro f k g x y h
        have h : some (Call.subscribe [(fa, 1, 0), (fb, 0, 1)]) = some (.unsubscribe f) := h
        injection h with h; cases h
    · intro _
      refine ⟨?_, ?_⟩
      · intro fs h
        have h : some Call.resubscribe = some (.subscribe fs) := h
        injection h with h; cases h
      · intro f k g x y h
        have h : some Call.resubscribe = some (.unsubscribe f) := h
        injection h with h; cases h
  · intro id x hx
    simp only [calm, List.mem_cons, Entry.called.injEq, reduceCtorEq, false_or, or_false, List.not_mem_nil] at hx
    rcases hx with ⟨rfl, rfl⟩ | ⟨rfl, rfl⟩
    · intro e he
      rw [looksShared_iff]
      simp only [List.mem_cons, List.not_mem_nil, or_false] at he
      rcases he with rfl | rfl <;> decide
    · trivial

/-- C83 fails for shared subscriptions: `$share/g/a` is subscribed, and resubscribe_existing_topics() subscribes `a`. -/
theorem C83_violated_shared : ∃ c log, Subs311.Reachable c log ∧
    log = [.called 1 (.subscribe [(fs, 0, 0)]), .sent 1 [(some fs, 0)], .answered 1 [(some fs, 0)] true,
      .called 2 .resubscribe, .sent 2 [(some fa, 0)]] ∧
    (book some log).subs fs = some (0, 0) ∧ (book some log).subs fa = none := by
  obtain ⟨c, _, h⟩ := played (xs := [.subscribe [(fs, 0)], .send 1 true, .suback 1 [0], .resubscribe, .send 2 true])
    (log := [.called 1 (.subscribe [(fs, 0, 0)]), .sent 1 [(some fs, 0)], .answered 1 [(some fs, 0)] true,
      .called 2 .resubscribe, .sent 2 [(some fa, 0)]]) (by decide +kernel)
  exact ⟨c, _, h, rfl, by decide +kernel, by decide +kernel⟩

/-- C83 fails for `a` beside `$share/g/a`: when the shared subscription is removed, `a` is still subscribed at the server, but
messages no longer reach its callback. -/
theorem C83_violated_unsubscribe : ∃ c log, Subs311.Reachable c log ∧
    log = [.called 1 (.subscribe [(fa, 0, 0)]), .sent 1 [(some fa, 0)], .answered 1 [(some fa, 0)] true,
      .called 2 (.subscribe [(fs, 0, 1)]), .sent 2 [(some fs, 0)], .cleanup 0, .answered 2 [(some fs, 0)] true,
      .called 3 (.unsubscribe fs), .sentUnsubscribe 3 fs, .cleanup 1, .unsubscribed 3 true, .delivered fa []] ∧
    (book some log).subs fa = some (0, 0) := by
  obtain ⟨c, _, h⟩ := played (xs := [.subscribe [(fa, 0)], .send 1 true, .suback 1 [0], .subscribe [(fs, 0)], .send 2 true,
      .suback 2 [0], .unsubscribe fs, .send 3 true, .unsuback 3, .message fa])
    (log := [.called 1 (.subscribe [(fa, 0, 0)]), .sent 1 [(some fa, 0)], .answered 1 [(some fa, 0)] true,
      .called 2 (.subscribe [(fs, 0, 1)]), .sent 2 [(some fs, 0)], .cleanup 0, .answered 2 [(some fs, 0)] true,
      .called 3 (.unsubscribe fs), .sentUnsubscribe 3 fs, .cleanup 1, .unsubscribed 3 true, .delivered fa []]) (by decide +kernel)
  exact ⟨c, _, h, rfl, by decide +kernel⟩

/-- C83 fails when a filter is unsubscribed while resubscribe_existing_topics() waits for SUBACK: on_suback receives a filter in
freed memory, and a packet that is sent again is made from it. -/
theorem C83_violated_freed : ∃ c log, Subs311.Reachable c log ∧
    log = [.called 1 (.subscribe [(fa, 0, 0)]), .sent 1 [(some fa, 0)], .answered 1 [(some fa, 0)] true,
      .called 2 .resubscribe, .sent 2 [(some fa, 0)], .called 3 (.unsubscribe fa), .sentUnsubscribe 3 fa, .cleanup 0,
      .called 4 (.subscribe [(fb, 0, 1)]), .sent 4 [(some fb, 0)], .sent 2 [(none, 0)]] ∧
    (∃ c' log', Subs311.Reachable c' log' ∧
      log' = [.called 1 (.subscribe [(fa, 0, 0)]), .sent 1 [(some fa, 0)], .answered 1 [(some fa, 0)] true,
        .called 2 .resubscribe, .sent 2 [(some fa, 0)], .called 3 (.unsubscribe fa), .sentUnsubscribe 3 fa, .cleanup 0,
        .answered 2 [(none, 0)] true]) := by
  obtain ⟨c, _, h⟩ := played (xs := [.subscribe [(fa, 0)], .send 1 true, .suback 1 [0], .resubscribe, .send 2 true,
      .unsubscribe fa, .send 3 true, .subscribe [(fb, 0)], .send 4 true, .send 2 true])
    (log := [.called 1 (.subscribe [(fa, 0, 0)]), .sent 1 [(some fa, 0)], .answered 1 [(some fa, 0)] true,
      .called 2 .resubscribe, .sent 2 [(some fa, 0)], .called 3 (.unsubscribe fa), .sentUnsubscribe 3 fa, .cleanup 0,
      .called 4 (.subscribe [(fb, 0, 1)]), .sent 4 [(some fb, 0)], .sent 2 [(none, 0)]]) (by decide +kernel)
  obtain ⟨c', _, h'⟩ := played (xs := [.subscribe [(fa, 0)], .send 1 true, .suback 1 [0], .resubscribe, .send 2 true,
      .unsubscribe fa, .send 3 true, .suback 2 [0]])
    (log := [.called 1 (.subscribe [(fa, 0, 0)]), .sent 1 [(some fa, 0)], .answered 1 [(some fa, 0)] true,
      .called 2 .resubscribe, .sent 2 [(some fa, 0)], .called 3 (.unsubscribe fa), .sentUnsubscribe 3 fa, .cleanup 0,
      .answered 2 [(none, 0)] true]) (by decide +kernel)
  exact ⟨c, _, h, rfl, c', _, h', rfl⟩

/-- C83 fails when the packet of resubscribe_existing_topics() is sent again after a new subscription: it has the filters of
the first time, but a SUBACK with as many codes is taken for a protocol error. -/
theorem C83_violated_resend : ∃ c log, Subs311.Reachable c log ∧
    log = [.called 1 (.subscribe [(fa, 0, 0)]), .sent 1 [(some fa, 0)], .answered 1 [(some fa, 0)] true,
      .called 2 .resubscribe, .sent 2 [(some fa, 0)], .called 3 (.subscribe [(fb, 0, 1)]), .sent 3 [(some fb, 0)],
      .sent 2 [(some fa, 0)], .protocolError 2] := by
  obtain ⟨c, _, h⟩ := played (xs := [.subscribe [(fa, 0)], .send 1 true, .suback 1 [0], .resubscribe, .send 2 true,
      .subscribe [(fb, 0)], .send 3 true, .send 2 true, .suback 2 [0]])
    (log := [.called 1 (.subscribe [(fa, 0, 0)]), .sent 1 [(some fa, 0)], .answered 1 [(some fa, 0)] true,
      .called 2 .resubscribe, .sent 2 [(some fa, 0)], .called 3 (.subscribe [(fb, 0, 1)]), .sent 3 [(some fb, 0)],
      .sent 2 [(some fa, 0)], .protocolError 2]) (by decide +kernel)
  exact ⟨c, _, h, rfl⟩

end Mqtt.Props
