import Verif.Lemmas.RrClientRoute
import Verif.Lemmas.RrClientHistory
import Verif.Props.C45

/-!
C46: a response completes a request iff it arrives on one of the request's response topics and carries the request's
correlation token; streams receive exactly the publishes whose topic matches their filter.

Responses and deliveries are only made by incoming publishes (`C46_only`). `C46_response_partial` and
`C46_completes_partial` are the two directions for requests. The topic of a response need not be one of the request that it
completes (`C46_violated_topic`); of the token paths given for a topic only one is used (`C46_violated_path`), and without a
path only a request with an empty token is completed (`C46_violated_token`). `C46_stream_partial` is the claim for streams,
except that `a/#` does not receive `a` (`C46_violated_parent`).
-/
namespace Mqtt.Props

open Mqtt.Spec Mqtt.TopicTree
open Mqtt.Rr (broker needs)
open Mqtt.RrClient

theorem split_segments (t : Bytes) : Segments t (split 46 t) := by
  refine ⟨split_ne_nil _ _, ?_⟩
  induction t with
  | nil => simp [split]
  | cons b bs ih =>
    rw [split]
    split
    · next h =>
      subst h
      refine ⟨?_, ?_⟩
      · intro l hl
        simp only [List.mem_cons] at hl
        rcases hl with rfl | hl
        · simp
        · exact ih.1 l hl
      · cases hs : split 46 bs with
        | nil => exact absurd hs (split_ne_nil _ _)
        | cons l ls =>
          rw [hs] at ih
          rw [List.intersperse_cons_cons]
          simp [← ih.2]
    · next h =>
      cases hs : split 46 bs with
      | nil => exact absurd hs (split_ne_nil _ _)
      | cons l ls =>
        rw [hs] at ih
        simp only
        refine ⟨?_, ?_⟩
        · intro m hm
          simp only [List.mem_cons] at hm
          rcases hm with rfl | hm
          · simp only [List.mem_cons, not_or]
            exact ⟨fun e => h e.symm, ih.1 l (by simp)⟩
          · exact ih.1 m (by simp [hm])
        · have h2 := ih.2
          cases ls with
          | nil => simpa using h2
          | cons l2 ls =>
            simp only [List.intersperse_cons_cons, List.flatten_cons, List.cons_append] at h2 ⊢
            rw [← h2]

theorem split_of_segments {t : Bytes} {ls : List Bytes} (h : Segments t ls) : split 46 t = ls := by
  have hsingle : ∀ a : Bytes, (46 : UInt8) ∉ a → split 46 a = [a] := by
    intro a h
    induction a with
    | nil => simp [split]
    | cons x xs ih =>
      simp only [List.mem_cons, not_or] at h
      rw [split, if_neg (fun e => h.1 e.symm), ih h.2]
  have happend : ∀ a b : Bytes, (46 : UInt8) ∉ a → split 46 (a ++ 46 :: b) = a :: split 46 b := by
    intro a b h
    induction a with
    | nil => simp [split]
    | cons x xs ih =>
      simp only [List.mem_cons, not_or] at h
      rw [List.cons_append, split, if_neg (fun e => h.1 e.symm), ih h.2]
  obtain ⟨hne, hno, rfl⟩ := h
  induction ls with
  | nil => exact absurd rfl hne
  | cons l ls ih =>
    cases ls with
    | nil => simpa using hsingle l (hno l (by simp))
    | cons l2 ls =>
      rw [List.intersperse_cons_cons, List.flatten_cons, List.flatten_cons, List.singleton_append,
        happend _ _ (hno l (by simp)), ih (by simp) (fun m hm => hno m (by simp [hm]))]

theorem member_iff {cfg : RrClient.Config} {key : Bytes} {ms : List (Bytes × Json)} {v : Json} :
    member cfg key ms = some v ↔ ∃ before k after, ms = before ++ (k, v) :: after ∧ cfg.sameKey k key = true ∧
      ∀ e ∈ before, cfg.sameKey e.1 key = false := by
  induction ms with
  | nil => simp [member]
  | cons x ms ih =>
    obtain ⟨k, w⟩ := x
    rw [member]
    split
    · rename_i hk
      constructor
      · intro e
        cases e
        exact ⟨[], k, ms, rfl, hk, by simp⟩
      · rintro ⟨before, k', after, e, h1, h2⟩
        cases before with
        | nil => cases e; rfl
        | cons y ys =>
          cases e
          have := h2 (k, w) (by simp)
          simp only at this
          rw [hk] at this
          cases this
    · rename_i hk
      rw [ih]
      constructor
      · rintro ⟨before, k', after, e, h1, h2⟩
        refine ⟨(k, w) :: before, k', after, by rw [e]; rfl, h1, ?_⟩
        intro y hy
        rcases List.mem_cons.1 hy with rfl | hy
        · simpa using hk
        · exact h2 y hy
      · rintro ⟨before, k', after, e, h1, h2⟩
        cases before with
        | nil => cases e; exact absurd h1 hk
        | cons y ys =>
          cases e
          exact ⟨ys, k', after, rfl, h1, fun z hz => h2 z (by simp [hz])⟩

theorem walk_iff {cfg : RrClient.Config} {names : List Bytes} {j v : Json} :
    walk cfg names j = some v ↔ FieldAt cfg.sameKey names j v := by
  induction names generalizing j with
  | nil => simp [walk, FieldAt]
  | cons s ss ih =>
    cases j with
    | object ms =>
      simp only [walk, FieldAt]
      constructor
      · intro h
        split at h
        · cases h
        · rename_i x hx
          obtain ⟨before, k, after, e, h1, h2⟩ := member_iff.1 hx
          exact ⟨before, k, x, after, by rw [e], h1, h2, ih.1 h⟩
      · rintro ⟨before, k, x, after, e, h1, h2, h3⟩
        cases e
        rw [member_iff.2 ⟨before, k, after, rfl, h1, h2⟩]
        exact ih.2 h3
    | string t => simp [walk, FieldAt]
    | other => simp [walk, FieldAt]

theorem tokenOf_iff {cfg : RrClient.Config} {path : Bytes} {msg : Message} {token : Bytes} :
    tokenOf cfg path msg.json = some token ↔ Carries cfg.sameKey path msg token := by
  unfold tokenOf Carries
  cases path with
  | nil => simp [eq_comm]
  | cons b bs =>
    simp only [List.isEmpty_cons, Bool.false_eq_true, if_false, reduceCtorEq, false_and, false_or, ne_eq, not_false_eq_true,
      true_and]
    cases hj : msg.json with
    | none => simp
    | some j =>
      simp only [Option.some.injEq, exists_and_left, exists_eq_left']
      constructor
      · intro h
        refine ⟨split 46 (b :: bs), split_segments _, walk_iff.1 ?_⟩
        cases hw : walk cfg (split 46 (b :: bs)) j with
        | none => rw [hw] at h; cases h
        | some x =>
          rw [hw] at h
          cases x with
          | string s => simp only [Option.some.injEq] at h; rw [h]
          | object ms => cases h
          | other => cases h
      · rintro ⟨names, h1, h2⟩
        rw [split_of_segments h1, walk_iff.2 h2]

/-- The code's matching is that of MQTT except for the parent of `#`. -/
theorem matchLevels_iff : ∀ (f ts : List Bytes), HashLast f → f ≠ [] →
    (matchLevels f ts = true ↔ Matches f ts ∧ ¬ ParentHash f ts) := by
  intro f
  induction f with
  | nil => intro ts _ h; exact absurd rfl h
  | cons x f ih =>
    intro ts hf _
    cases ts with
    | nil =>
      simp only [matchLevels, Bool.false_eq_true, false_iff, not_and]
      intro hm hnp
      apply hnp
      by_cases hx : x = [35] ∧ f = []
      · exact ⟨[], by simp [hx], by simp [Matches]⟩
      · exact absurd hm (matches_cons_nil hx)
    | cons t ts =>
      by_cases hx : x = [35] ∧ f = []
      · obtain ⟨rfl, rfl⟩ := hx
        simp only [matchLevels, if_true, true_iff]
        refine ⟨by simp [Matches], ?_⟩
        rintro ⟨par, e, hp⟩
        cases par with
        | nil => simp [Matches] at hp
        | cons y p => simp at e
      · have hx35 : x ≠ [35] := by
          intro e
          cases f with
          | nil => exact hx ⟨e, rfl⟩
          | cons y f => exact hf [] y f (by simp [e])
        rw [matchLevels, matches_cons_ne hx, if_neg hx35]
        by_cases hxt : x = [43] ∨ x = t
        · have hcond : ¬ (x ≠ [43] ∧ t ≠ x) := by
            rintro ⟨h1, h2⟩
            rcases hxt with h | h
            · exact h1 h
            · exact h2 h.symm
          rw [if_neg hcond]
          simp only [hxt, true_and]
          cases f with
          | nil =>
            cases ts with
            | nil =>
              simp only [matchLevels, Matches, true_and, List.isEmpty_nil, true_iff]
              rintro ⟨par, e, hp⟩
              cases par with
              | nil => simp [Matches] at hp
              | cons y p => simp at e
            | cons u ts => simp [matchLevels, Matches]
          | cons y f =>
            rw [ih ts (hashLast_tail hf) (by simp)]
            have hpar : (ParentHash (x :: y :: f) (t :: ts) ↔ ParentHash (y :: f) ts) := by
              constructor
              · rintro ⟨par, e, hp⟩
                cases par with
                | nil => simp at e
                | cons z p =>
                  simp only [List.cons_append, List.cons.injEq] at e
                  refine ⟨p, e.2, ?_⟩
                  rw [matches_cons_ne (by rintro ⟨h1, _⟩; exact hx35 (e.1.trans h1))] at hp
                  exact hp.2
              · rintro ⟨p, e, hp⟩
                refine ⟨x :: p, by simp [e], ?_⟩
                rw [matches_cons_ne (fun h => hx35 h.1)]
                exact ⟨hxt, hp⟩
            rw [hpar]
        · have hcond : x ≠ [43] ∧ t ≠ x := by
            simp only [not_or] at hxt
            exact ⟨hxt.1, fun e => hxt.2 e.symm⟩
          rw [if_pos hcond]
          simp [hxt]

theorem matches_plain : ∀ (f ts : List Bytes), (∀ l ∈ f, l ≠ [43] ∧ l ≠ [35]) → (Matches f ts ↔ f = ts) := by
  intro f
  induction f with
  | nil =>
    intro ts _
    rw [matches_nil_left]
    exact eq_comm
  | cons x f ih =>
    intro ts h
    obtain ⟨h1, h2⟩ := h x (by simp)
    have hx : ¬ (x = [35] ∧ f = []) := fun e => h2 e.1
    cases ts with
    | nil => simp [matches_cons_nil hx]
    | cons t ts =>
      rw [matches_cons_ne hx, ih ts (fun l hl => h l (by simp [hl]))]
      simp [h1]

/-- Where the code looks for a stream with a filter. -/
def rrHit (f topic : Bytes) : Prop := hasWildcard f = true ∧ matchesFilter topic f = true ∨ hasWildcard f = false ∧ f = topic

theorem rrHit_iff {f topic : Bytes} (hf : TopicFilter f) {fl tl : List Bytes} (h1 : Levels f fl) (h2 : Levels topic tl) :
    rrHit f topic ↔ Matches fl tl ∧ ¬ ParentHash fl tl := by
  have e1 := levels_iff.1 h1
  have e2 := levels_iff.1 h2
  subst e1 e2
  unfold rrHit
  cases hw : hasWildcard f with
  | true =>
    simp only [true_and, Bool.true_eq_false, false_and, or_false]
    exact matchLevels_iff _ _ (hashLast_of_filter hf) (split_ne_nil _ _)
  | false =>
    simp only [Bool.false_eq_true, false_and, true_and, false_or]
    have hno : ∀ l ∈ split 47 f, l ≠ [43] ∧ l ≠ [35] := by
      simp only [hasWildcard, Bool.or_eq_false_iff] at hw
      intro l hl
      constructor
      · rintro rfl
        have : (43 : UInt8) ∈ f := (mem_of_mem_split (by decide)).2 ⟨_, hl, by simp⟩
        simp [this] at hw
      · rintro rfl
        have : (35 : UInt8) ∈ f := (mem_of_mem_split (by decide)).2 ⟨_, hl, by simp⟩
        simp [this] at hw
    rw [matches_plain _ _ hno]
    constructor
    · rintro rfl
      refine ⟨rfl, ?_⟩
      rintro ⟨par, e, _⟩
      exact (hno [35] (by rw [e]; simp)).2 rfl
    · rintro ⟨e, _⟩
      exact levels_inj e

theorem count_flatMap_one {m : AMap Bytes (List Nat)} (hn : m.Nodup) {f : Bytes} {l : List Nat} {id : Nat}
    (hl : ∀ e ∈ m, id ∈ e.2 → e.1 = f) (hf : m.get f = some l) : (m.flatMap (·.2)).count id = l.count id := by
  induction m with
  | nil => cases hf
  | cons e m ih =>
    obtain ⟨g, k⟩ := e
    simp only [List.flatMap_cons, List.count_append]
    rw [AMap.get_cons] at hf
    have hn' : g ∉ m.map (·.1) ∧ AMap.Nodup m := List.nodup_cons.1 hn
    split at hf
    · rename_i hg
      cases hf
      subst hg
      have : (m.flatMap (·.2)).count id = 0 := by
        rw [List.count_eq_zero]
        intro hx
        obtain ⟨e, he, hi⟩ := List.mem_flatMap.1 hx
        have := hl e (by simp [he]) hi
        exact hn'.1 (List.mem_map.2 ⟨e, he, this⟩)
      omega
    · rename_i hg
      have h0 : k.count id = 0 := by
        rw [List.count_eq_zero]
        intro hx
        exact hg (hl (g, k) (by simp) hx)
      rw [h0, ih hn'.2 (fun e he => hl e (by simp [he])) hf, Nat.zero_add]

theorem nodup_filter {m : AMap Bytes (List Nat)} (h : m.Nodup) (p : Bytes × List Nat → Bool) : AMap.Nodup (m.filter p) :=
  (List.filter_sublist.map _).nodup h

theorem get_filter {m : AMap Bytes (List Nat)} (p : Bytes → Bool) (f : Bytes) :
    AMap.get (m.filter fun e => p e.1) f = if p f then m.get f else none := by
  induction m with
  | nil => simp [AMap.get]
  | cons e m ih =>
    obtain ⟨g, l⟩ := e
    by_cases hp : p g = true
    · simp only [List.filter_cons, hp, if_true, AMap.get_cons, ih]
      by_cases e : g = f
      · subst e; simp [hp]
      · simp [e]
    · simp only [List.filter_cons, hp, AMap.get_cons, ih, if_false, Bool.false_eq_true]
      by_cases e : g = f
      · subst e; simp [hp]
      · simp [e]

/-- A stream is among the receivers once if its filter matches. -/
theorem receivers_count {cfg : RrClient.Config} {c : Client} (hi : Inv cfg false [] c) (hs : Str (fun _ => False) c)
    {id : Nat} {op : Op} {f : Bytes} (hg : c.ops.get id = some op) (hb : op.body = .stream f) (topic : Bytes) :
    (op.inTables = true → op.state ≠ .terminal → rrHit f topic → (receivers c topic).count id = 1) ∧
    (id ∈ receivers c topic → op.inTables = true ∧ op.state ≠ .terminal ∧ rrHit f topic) := by
  obtain ⟨b1, b2, b3, b4, b5, b6⟩ := hs.ops id op f (fun x => x) hg hb
  have hst : ∀ e ∈ c.streams, id ∈ e.2 → e.1 = f := by
    intro e he hx
    obtain ⟨o, o1, o2, _⟩ := hi.streams e he id hx
    rw [hg] at o1
    cases o1
    rw [hb] at o2
    injection o2 with o2
    exact o2.symm
  have hwd : ∀ e ∈ c.wildcards, id ∈ e.2 → e.1 = f := by
    intro e he hx
    obtain ⟨o, o1, o2, _⟩ := hi.wildcards e he id hx
    rw [hg] at o1
    cases o1
    rw [hb] at o2
    injection o2 with o2
    exact o2.symm
  constructor
  · intro hin hnt hhit
    have hlive : live c.ops id = true := by
      simp [live, hg, hb, b3, hnt]
    unfold receivers
    rw [List.count_filter hlive, List.count_append]
    have hl := b6 hin
    unfold listOf at hl
    rcases hhit with ⟨h1, h2⟩ | ⟨h1, h2⟩
    · rw [if_pos h1] at hl
      cases hx : c.wildcards.get f with
      | none => rw [hx] at hl; cases hl
      | some l =>
        rw [hx] at hl
        simp only [Option.getD_some] at hl
        have hnd := (hs.lists (f, l) (AMap.get_some_mem hx)).2
        rw [count_flatMap_one (nodup_filter hs.wild _) (f := f) (l := l)
          (fun e he => hwd e (List.mem_filter.1 he).1)
          (by rw [get_filter (p := fun g => matchesFilter topic g), if_pos h2, hx]), hnd.count, if_pos hl]
        have : ((c.streams.get topic).getD []).count id = 0 := by
          rw [List.count_eq_zero]
          intro hy
          cases hz : c.streams.get topic with
          | none => rw [hz] at hy; cases hy
          | some l' =>
            rw [hz] at hy
            have := hst _ (AMap.get_some_mem hz) hy
            have h3 := (hs.plain _ (AMap.get_some_mem hz)).1
            rw [this, h1] at h3
            cases h3
        omega
    · rw [if_neg (by rw [h1]; simp)] at hl
      subst h2
      cases hx : c.streams.get f with
      | none => rw [hx] at hl; cases hl
      | some l =>
        rw [hx] at hl
        simp only [Option.getD_some] at hl ⊢
        have hnd := (hs.plain (f, l) (AMap.get_some_mem hx)).2
        rw [hnd.count, if_pos hl]
        have : ((c.wildcards.filter fun e => matchesFilter f e.1).flatMap (·.2)).count id = 0 := by
          rw [List.count_eq_zero]
          intro hy
          obtain ⟨e, he, hz⟩ := List.mem_flatMap.1 hy
          have he := (List.mem_filter.1 he).1
          have h3 := (hs.lists e he).1
          rw [hwd e he hz, h1] at h3
          cases h3
        omega
  · intro hx
    unfold receivers at hx
    obtain ⟨hx, hlive⟩ := List.mem_filter.1 hx
    have hnt : op.state ≠ .terminal := by
      intro e
      simp [live, hg, hb, e] at hlive
    rcases List.mem_append.1 hx with hx | hx
    · cases hz : c.streams.get topic with
      | none => rw [hz] at hx; cases hx
      | some l =>
        rw [hz] at hx
        have hm := AMap.get_some_mem hz
        obtain ⟨o, o1, _, o3⟩ := hi.streams _ hm id hx
        rw [hg] at o1
        cases o1
        have := hst _ hm hx
        have h3 := (hs.plain _ hm).1
        simp only at this h3
        subst this
        exact ⟨o3, hnt, .inr ⟨h3, rfl⟩⟩
    · obtain ⟨e, he, hz⟩ := List.mem_flatMap.1 hx
      obtain ⟨he, hmf⟩ := List.mem_filter.1 he
      obtain ⟨o, o1, _, o3⟩ := hi.wildcards e he id hz
      rw [hg] at o1
      cases o1
      have := hwd e he hz
      subst this
      exact ⟨o3, hnt, .inl ⟨(hs.lists e he).1, hmf⟩⟩

theorem count_delivered (msg : Message) (ids : List Nat) (id : Nat) :
    (delivered msg ids).filter (isDelivery id) =
      List.replicate (ids.count id) (.delivered id msg.topic msg.payload) := by
  unfold delivered
  induction ids with
  | nil => rfl
  | cons i is ih =>
    simp only [List.map_cons, List.filter_cons, isDelivery, List.count_cons, ih]
    by_cases e : i = id
    · subst e; simp [List.replicate_succ]
    · simp [e]

/-- What an incoming publish adds to the log. -/
theorem publish_log {cfg : RrClient.Config} {c c' : Client} {now : Nat} {msg : Message} (hp : c.phase = .active)
    (hr : stepAt cfg { c with clock := now } now (.publish msg) = .ok c') :
    ∃ rest, c'.log = c.log ++ (delivered msg (receivers c msg.topic) ++ rest) ∧
      (rest = [] ∨ ∃ e token id op, c.paths.get msg.topic = some e ∧ tokenOf cfg e.tokenPath msg.json = some token ∧
        c.tokens.get token = some id ∧ c.ops.get id = some op ∧ op.state ≠ .pendingDestroy ∧
        rest = [.response id msg.topic msg.payload]) ∧
      (rest = [] → ∀ e token id op, c.paths.get msg.topic = some e → tokenOf cfg e.tokenPath msg.json = some token →
        c.tokens.get token = some id → c.ops.get id = some op → op.state = .pendingDestroy) := by
  obtain ⟨c1, e1, h1, h2⟩ := onPublish_eq (c := { c with clock := now }) hp hr
  have e1 : c1 = { c with clock := now, log := c.log ++ delivered msg (receivers c msg.topic) } := e1
  cases hx : c.paths.get msg.topic with
  | none =>
    have hc := h1 hx
    refine ⟨[], by rw [hc, e1]; simp, .inl rfl, ?_⟩
    intro _ e _ _ _ hy
    cases hy
  | some e =>
    have h3 := h2 e hx
    unfold Client.applyResponse at h3
    split at h3
    · rename_i ht
      cases h3
      refine ⟨[], by rw [e1]; simp, .inl rfl, ?_⟩
      intro _ e' _ _ _ hy ht'
      cases hy
      rw [ht] at ht'
      cases ht'
    · rename_i token ht
      rcases respond_log h3 with ⟨h4, h5⟩ | ⟨id, op, h4, h5, h6, h7⟩
      · refine ⟨[], by rw [h4, e1]; simp, .inl rfl, ?_⟩
        intro _ e' token' id op hy ht' hid hop
        cases hy
        rw [ht] at ht'
        cases ht'
        rw [e1] at h5
        exact h5 id op hid hop
      · rw [e1] at h4 h5
        refine ⟨[.response id msg.topic msg.payload], by rw [h7, e1]; simp, .inr ⟨e, token, id, op, rfl, ht, h4, h5, h6, rfl⟩, ?_⟩
        intro hy
        cases hy

/-- Only incoming publishes complete requests with a response or are delivered to streams. -/
theorem C46_only {cfg : RrClient.Config} {c c' : Client} {now : Nat} {e : RrClient.Event} (he : ∀ msg, e ≠ .publish msg)
    (hr : stepAt cfg { c with clock := now } now e = .ok c') :
    ∃ new, c'.log = c.log ++ new ∧ ∀ x ∈ new, isResponse x = false ∧ ∀ id, isDelivery id x = false := by
  obtain ⟨new, e1, e2⟩ := step_mum he hr
  refine ⟨new, e1, ?_⟩
  intro x hx
  have := e2 x hx
  cases x <;> simp_all [noAnswer, isResponse, isDelivery]

/-- **C46** for responses, partly: a publish completes at most one request, with its topic and payload, and only a request
whose correlation token it carries at a token path that some request has given for its topic. (The full claim is that the
completed request is one of those.) -/
theorem C46_response_partial {cfg : RrClient.Config} {c c' : Client} {now : Nat} {msg : Message}
    (h : RrClient.Reachable cfg anything c) (hr : stepAt cfg { c with clock := now } now (.publish msg) = .ok c') :
    ∃ new, c'.log = c.log ++ new ∧ new.countP isResponse ≤ 1 ∧ ∀ id t p, Trace.response id t p ∈ new →
      t = msg.topic ∧ p = msg.payload ∧ ∃ r path id' r', Trace.submitted id r ∈ c.log ∧ Trace.submitted id' r' ∈ c.log ∧
        ⟨msg.topic, path⟩ ∈ r'.paths ∧ Carries cfg.sameKey path msg r.token := by
  by_cases hp : c.phase = .active
  · have hi := reachable_inv h (strict := false) (by simp)
    obtain ⟨rest, e1, e2, _⟩ := publish_log hp hr
    have hno : ∀ x ∈ delivered msg (receivers c msg.topic), isResponse x = false := by
      intro x hx
      obtain ⟨i, _, rfl⟩ := List.mem_map.1 hx
      rfl
    have h0 : (delivered msg (receivers c msg.topic)).countP isResponse = 0 := by
      rw [List.countP_eq_zero]
      intro x hx
      simp [hno x hx]
    refine ⟨_, e1, ?_, ?_⟩
    · rw [List.countP_append, h0]
      rcases e2 with rfl | ⟨_, _, _, _, _, _, _, _, _, rfl⟩ <;> simp [isResponse]
    · intro id t p hx
      rcases List.mem_append.1 hx with hx | hx
      · have := hno _ hx; cases this
      · rcases e2 with rfl | ⟨e, token, id', op, a1, a2, a3, a4, a5, rfl⟩
        · cases hx
        · simp only [List.mem_singleton, Trace.response.injEq] at hx
          obtain ⟨rfl, rfl, rfl⟩ := hx
          obtain ⟨o, r, o1, o2, o3, o4⟩ := hi.tokens token _ a3
          obtain ⟨j, r', j1, j2⟩ := hi.origin _ e a1
          obtain ⟨i1, i2, i3, i4, i5⟩ := idOk_request (hi.ids id) o1 o2
          subst o3
          exact ⟨rfl, rfl, r, e.tokenPath, j, r', i3, j1, j2, tokenOf_iff.1 a2⟩
  · have : c' = { c with clock := now } := by
      simp only [stepAt, Client.onPublish, ne_eq, hp, not_false_eq_true, if_true, Except.ok.injEq] at hr
      exact hr.symm
    exact ⟨[], by rw [this]; simp, by simp, fun _ _ _ hx => by cases hx⟩

theorem regs_le {m : AMap Nat Op} {id : Nat} {op : Op} (h : (id, op) ∈ m) (t : Bytes) : op.regs t ≤ regs m t := by
  induction m with
  | nil => cases h
  | cons e m ih =>
    rw [regs_cons]
    rcases List.mem_cons.1 h with rfl | h
    · exact Nat.le_add_right _ _
    · have := ih h
      omega

/-- **C46** for responses, partly: a publish on one of the response topics of a request that carries the correlation token
of the request completes it. The request depends on a subscription, is not yet completed, and all requests with that
response topic have the same token path for it. -/
theorem C46_completes_partial {cfg : RrClient.Config} {c c' : Client} {now : Nat} {msg : Message} {id : Nat} {r : Request}
    {f path : Bytes} (h : RrClient.Reachable cfg anything c) (hp : c.phase = .active) (hs : Trace.submitted id r ∈ c.log)
    (hn : needs c.manager.log id f = true) (hc : completions c.log id = 0) (ht : ⟨msg.topic, path⟩ ∈ r.paths)
    (hu : ∀ id' r' path', Trace.submitted id' r' ∈ c.log → ⟨msg.topic, path'⟩ ∈ r'.paths → path' = path)
    (hm : Carries cfg.sameKey path msg r.token) (hr : stepAt cfg { c with clock := now } now (.publish msg) = .ok c') :
    ∃ new, c'.log = c.log ++ new ∧ new.filter isResponse = [.response id msg.topic msg.payload] := by
  have hi := reachable_inv h (strict := false) (by simp)
  obtain ⟨op, hg, hb, hin, _⟩ := rr_placed h hp hs hn hc
  have h1 : 1 ≤ op.regs msg.topic := by
    unfold Op.regs
    rw [if_pos hin, hb]
    exact List.count_pos_iff.2 (List.mem_map.2 ⟨_, ht, rfl⟩)
  have h2 := hi.paths msg.topic
  have h3 := regs_le (AMap.get_some_mem hg) msg.topic
  cases hx : c.paths.get msg.topic with
  | none =>
    rw [hx] at h2
    simp only [Option.map_none, Option.getD_none] at h2
    omega
  | some e =>
    obtain ⟨j, r', j1, j2⟩ := hi.origin _ e hx
    have hpath := hu j r' e.tokenPath j1 j2
    have htok := hi.tokens' id op r hg hb hin
    have hcar := tokenOf_iff.2 hm
    rw [← hpath] at hcar
    have hst : op.state ≠ .pendingDestroy := by
      obtain ⟨_, _, _, _, i5⟩ := idOk_request (hi.ids id) hg hb
      cases i5 with
      | waiting _ _ _ a _ _ => exact a
      | completed _ _ _ a _ => omega
      | twice _ _ _ a _ _ => omega
    obtain ⟨rest, e1, e2, e3⟩ := publish_log hp hr
    have hno : (delivered msg (receivers c msg.topic)).filter isResponse = [] := by
      rw [List.filter_eq_nil_iff]
      intro x hx
      obtain ⟨i, _, rfl⟩ := List.mem_map.1 hx
      simp [isResponse]
    refine ⟨_, e1, ?_⟩
    rw [List.filter_append, hno, List.nil_append]
    rcases e2 with rfl | ⟨e', token, id', op', a1, a2, a3, a4, a5, rfl⟩
    · exact absurd (e3 rfl e r.token id op hx hcar htok hg) hst
    · rw [hx] at a1
      cases a1
      rw [hcar] at a2
      cases a2
      rw [htok] at a3
      cases a3
      simp [isResponse]

/-- **C46** for streams, partly: a stream that depends on its subscription and has not been told that it is over receives a
publish once if its topic matches the filter of the stream, and does not receive it otherwise. (The full claim is without
the exception for the parent of `#`.) -/
theorem C46_stream_partial {cfg : RrClient.Config} {c c' : Client} {now : Nat} {msg : Message} {id : Nat} {f : Bytes}
    {fl tl : List Bytes} (h : RrClient.Reachable cfg anything c) (hp : c.phase = .active) (ho : Trace.opened id f ∈ c.log)
    (hcl : Trace.closedDown id ∉ c.log) (hn : needs c.manager.log id f = true) (hh : ¬ halted c.log id)
    (h1 : Levels f fl) (h2 : Levels msg.topic tl) (hr : stepAt cfg { c with clock := now } now (.publish msg) = .ok c') :
    ∃ new, c'.log = c.log ++ new ∧
      (Matches fl tl ∧ ¬ ParentHash fl tl → new.filter (isDelivery id) = [.delivered id msg.topic msg.payload]) ∧
      (¬ (Matches fl tl ∧ ¬ ParentHash fl tl) → new.filter (isDelivery id) = []) := by
  have hi := reachable_inv h (strict := false) (by simp)
  have hs := reachable_str h (by rw [hp]; simp)
  obtain ⟨op, hg, hb⟩ := (hs.kept id f ho).resolve_left hcl
  have hop := hs.ops id op f (fun x => x) hg hb
  obtain ⟨hm, hmc⟩ := hi.manager hp
  obtain ⟨rec, r1, r2⟩ := ((Rr.reachable_minv hm).usable hmc f).needed id hn
  have hk := hi.kinds hp (f, rec) (AMap.get_some_mem r1) id r2
  have hnt : op.state ≠ .terminal := fun e => hh (hop.state.1 e)
  have hin : op.inTables = true := by
    cases hx : op.inTables with
    | true => rfl
    | false =>
      rcases hop.placed hx (hk.2.2 op hg).2 with hx | hx
      · exact absurd hx hk.2.1
      · exact absurd hx hnt
  obtain ⟨c1, c2⟩ := receivers_count hi hs hg hb msg.topic
  obtain ⟨rest, e1, e2, _⟩ := publish_log hp hr
  have hrest : rest.filter (isDelivery id) = [] := by
    rcases e2 with rfl | ⟨_, _, _, _, _, _, _, _, _, rfl⟩ <;> simp [isDelivery]
  have hhit := rrHit_iff ((C08_filter f).1 (hs.legal id f ho)) h1 h2
  refine ⟨_, e1, ?_, ?_⟩
  · intro hmat
    rw [List.filter_append, hrest, count_delivered, c1 hin hnt (hhit.2 hmat)]
    rfl
  · intro hmat
    rw [List.filter_append, hrest, count_delivered, List.count_eq_zero.2 (fun hx => hmat (hhit.1 (c2 hx).2.2))]
    rfl

/-- **C46** for streams: whatever a stream receives is the publish that came in, and its topic matches the filter with which
the stream was created. Streams that have been told that their subscription is over receive nothing. -/
theorem C46_stream_sound {cfg : RrClient.Config} {c c' : Client} {now : Nat} {msg : Message}
    (h : RrClient.Reachable cfg anything c) (hr : stepAt cfg { c with clock := now } now (.publish msg) = .ok c') :
    ∃ new, c'.log = c.log ++ new ∧ ∀ id t p, Trace.delivered id t p ∈ new → t = msg.topic ∧ p = msg.payload ∧
      ¬ halted c.log id ∧ ∃ f, Trace.opened id f ∈ c.log ∧ TopicFilter f ∧
        ∀ fl tl, Levels f fl → Levels msg.topic tl → Matches fl tl := by
  by_cases hp : c.phase = .active
  · have hi := reachable_inv h (strict := false) (by simp)
    have hs := reachable_str h (by rw [hp]; simp)
    obtain ⟨rest, e1, e2, _⟩ := publish_log hp hr
    refine ⟨_, e1, ?_⟩
    intro id t p hx
    rcases List.mem_append.1 hx with hx | hx
    · obtain ⟨i, hi', e⟩ := List.mem_map.1 hx
      cases e
      obtain ⟨op, f, hg, hb⟩ : ∃ op f, c.ops.get id = some op ∧ op.body = .stream f := by
        have hl := (List.mem_filter.1 hi').2
        unfold live at hl
        cases hg : c.ops.get id with
        | none => rw [hg] at hl; cases hl
        | some op =>
          rw [hg] at hl
          rcases Body.cases op.body with ⟨f, hb⟩ | ⟨r, hb⟩
          · exact ⟨op, f, rfl, hb⟩
          · simp [hb] at hl
      obtain ⟨_, c2⟩ := receivers_count hi hs hg hb msg.topic
      obtain ⟨_, d2, d3⟩ := c2 hi'
      have hop := hs.ops _ op f (fun x => x) hg hb
      have hof := (hop.opened f).2 rfl
      have hf := (C08_filter f).1 (hs.legal _ f hof)
      exact ⟨rfl, rfl, fun e => d2 (hop.state.2 e), f, hof, hf, fun fl tl l1 l2 => ((rrHit_iff hf l1 l2).1 d3).1⟩
    · rcases e2 with rfl | ⟨_, _, _, _, _, _, _, _, _, rfl⟩
      · cases hx
      · simp at hx
  · have : c' = { c with clock := now } := by
      simp only [stepAt, Client.onPublish, ne_eq, hp, not_false_eq_true, if_true, Except.ok.injEq] at hr
      exact hr.symm
    exact ⟨[], by rw [this]; simp, fun _ _ _ hx => by cases hx⟩

/-- A request with the filter `f`, one response topic and its token path. -/
def rrcPath (f topic path token : Bytes) : Request :=
  { filters := [f], paths := [⟨topic, path⟩], token := token, topic := [114], payload := [1] }

/-- Two requests are sent. -/
def rrcTwo (r1 r2 : Request) : History :=
  [ (1, .task {} 0), (1, .submit r1), (1, .submit r2), (1, .task {} 0), (1, .task {} 0), (1, .service {} []),
    (2, .finished {} [97] .subscribe true false), (2, .finished {} [98] .subscribe true false),
    (3, .task {} 0), (3, .task {} 0) ]

/-- A publish with one member. -/
def rrcMsg (topic key token : Bytes) : Message := ⟨topic, [9], some (.object [(key, .string token)])⟩

/-- The hypotheses of `C46_completes_partial` hold for the second of two requests with the same response topic. -/
example : ∃ c c', RrClient.Reachable rrcCfg anything c ∧ c.phase = .active ∧
    Trace.submitted 2 (rrcPath [98] [116] [120, 46, 121] [2]) ∈ c.log ∧ needs c.manager.log 2 [98] = true ∧
    completions c.log 2 = 0 ∧
    Carries rrcCfg.sameKey [120, 46, 121] ⟨[116], [9], some (.object [([120], .object [([121], .string [2])])])⟩ [2] ∧
    stepAt rrcCfg { c with clock := 4 } 4 (.publish ⟨[116], [9], some (.object [([120], .object [([121], .string [2])])])⟩) =
      .ok c' ∧ Trace.response 2 [116] [9] ∈ c'.log ∧ completions c'.log 1 = 0 := by
  refine ⟨(play rrcCfg {} (rrcTwo (rrcPath [97] [116] [120, 46, 121] [1]) (rrcPath [98] [116] [120, 46, 121] [2]))).getD {},
    (play rrcCfg {} (rrcTwo (rrcPath [97] [116] [120, 46, 121] [1]) (rrcPath [98] [116] [120, 46, 121] [2]) ++
      [(4, .publish ⟨[116], [9], some (.object [([120], .object [([121], .string [2])])])⟩)])).getD {},
    play_anything .new (h := rrcTwo (rrcPath [97] [116] [120, 46, 121] [1]) (rrcPath [98] [116] [120, 46, 121] [2]))
      (by decide +kernel) (eq_some_getD _ (by decide +kernel)), by decide +kernel, by decide +kernel, by decide +kernel,
    by decide +kernel, tokenOf_iff.1 (by decide +kernel), by decide +kernel, by decide +kernel, by decide +kernel⟩

/-- **C46 is violated**: a publish completes a request though its topic is not one of its response topics. -/
theorem C46_violated_topic : ∃ cfg c c' now msg id r, RrClient.Reachable cfg anything c ∧ c.phase = .active ∧
    Trace.submitted id r ∈ c.log ∧ completions c.log id = 0 ∧ msg.topic ∉ r.paths.map Path.topic ∧
    RrClient.Enabled c now (.publish msg) ∧ stepAt cfg { c with clock := now } now (.publish msg) = .ok c' ∧
    Trace.response id msg.topic msg.payload ∈ c'.log := by
  refine ⟨rrcCfg, (play rrcCfg {} (rrcTwo (rrcPath [97] [116] [120] [1]) (rrcPath [98] [117] [120] [2]))).getD {},
    (play rrcCfg {} (rrcTwo (rrcPath [97] [116] [120] [1]) (rrcPath [98] [117] [120] [2]) ++
      [(4, .publish (rrcMsg [116] [120] [2]))])).getD {}, 4, rrcMsg [116] [120] [2], 2, rrcPath [98] [117] [120] [2],
    play_anything .new (h := rrcTwo (rrcPath [97] [116] [120] [1]) (rrcPath [98] [117] [120] [2]))
      (by decide +kernel) (eq_some_getD _ (by decide +kernel)), by decide +kernel, by decide +kernel, by decide +kernel,
    by decide +kernel, enabled_sound (by decide +kernel), by decide +kernel, by decide +kernel⟩

/-- **C46 is violated**: a publish on a response topic of a request carries its token at the path that the request has given
for the topic, but does not complete it, because another request has given another path. -/
theorem C46_violated_path : ∃ cfg c c' now msg id r path, RrClient.Reachable cfg anything c ∧ c.phase = .active ∧
    Trace.submitted id r ∈ c.log ∧ completions c.log id = 0 ∧ Trace.published id r.topic r.payload ∈ c.log ∧
    ⟨msg.topic, path⟩ ∈ r.paths ∧ Carries cfg.sameKey path msg r.token ∧
    RrClient.Enabled c now (.publish msg) ∧ stepAt cfg { c with clock := now } now (.publish msg) = .ok c' ∧
    completions c'.log id = 0 := by
  refine ⟨rrcCfg, (play rrcCfg {} (rrcTwo (rrcPath [97] [116] [120] [1]) (rrcPath [98] [116] [121] [2]))).getD {},
    (play rrcCfg {} (rrcTwo (rrcPath [97] [116] [120] [1]) (rrcPath [98] [116] [121] [2]) ++
      [(4, .publish (rrcMsg [116] [121] [2]))])).getD {}, 4, rrcMsg [116] [121] [2], 2, rrcPath [98] [116] [121] [2], [121],
    play_anything .new (h := rrcTwo (rrcPath [97] [116] [120] [1]) (rrcPath [98] [116] [121] [2]))
      (by decide +kernel) (eq_some_getD _ (by decide +kernel)), by decide +kernel, by decide +kernel, by decide +kernel,
    by decide +kernel, by decide +kernel, tokenOf_iff.1 (by decide +kernel), enabled_sound (by decide +kernel),
    by decide +kernel, by decide +kernel⟩

/-- **C46 is violated**: a request with a token has given a response topic without a token path; a publish on that topic does
not complete it. -/
theorem C46_violated_token : ∃ cfg c c' now msg id r, RrClient.Reachable cfg anything c ∧ c.phase = .active ∧
    Trace.submitted id r ∈ c.log ∧ completions c.log id = 0 ∧ Trace.published id r.topic r.payload ∈ c.log ∧
    ⟨msg.topic, []⟩ ∈ r.paths ∧ RrClient.Enabled c now (.publish msg) ∧
    stepAt cfg { c with clock := now } now (.publish msg) = .ok c' ∧ completions c'.log id = 0 := by
  refine ⟨rrcCfg, (play rrcCfg {} (rrcTwo (rrcPath [97] [116] [] [1]) (rrcPath [98] [117] [121] [2]))).getD {},
    (play rrcCfg {} (rrcTwo (rrcPath [97] [116] [] [1]) (rrcPath [98] [117] [121] [2]) ++
      [(4, .publish (rrcMsg [116] [120] [1]))])).getD {}, 4, rrcMsg [116] [120] [1], 1, rrcPath [97] [116] [] [1],
    play_anything .new (h := rrcTwo (rrcPath [97] [116] [] [1]) (rrcPath [98] [117] [121] [2]))
      (by decide +kernel) (eq_some_getD _ (by decide +kernel)), by decide +kernel, by decide +kernel, by decide +kernel,
    by decide +kernel, by decide +kernel, enabled_sound (by decide +kernel), by decide +kernel, by decide +kernel⟩

/-- A stream with the filter `a/#` is established. -/
def rrcHash : History :=
  [ (1, .task {} 0), (1, .openStream [97, 47, 35]), (1, .activate 1), (1, .task {} 0), (1, .service {} []),
    (2, .finished {} [97, 47, 35] .subscribe true false), (3, .task {} 0) ]

/-- The hypotheses of `C46_stream_partial` hold for the stream; it receives `a/b`, but not `b`. -/
example : ∃ c, RrClient.Reachable rrcCfg anything c ∧ c.phase = .active ∧ Trace.opened 1 [97, 47, 35] ∈ c.log ∧
    Trace.closedDown 1 ∉ c.log ∧ needs c.manager.log 1 [97, 47, 35] = true ∧ ¬ halted c.log 1 ∧
    (∃ c', stepAt rrcCfg { c with clock := 4 } 4 (.publish ⟨[97, 47, 98], [9], none⟩) = .ok c' ∧
      Trace.delivered 1 [97, 47, 98] [9] ∈ c'.log) ∧
    (∃ c', stepAt rrcCfg { c with clock := 4 } 4 (.publish ⟨[98], [9], none⟩) = .ok c' ∧
      Trace.delivered 1 [98] [9] ∉ c'.log) := by
  refine ⟨(play rrcCfg {} rrcHash).getD {}, play_anything .new (h := rrcHash) (by decide +kernel)
    (eq_some_getD _ (by decide +kernel)), by decide +kernel, by decide +kernel, by decide +kernel, by decide +kernel, ?_,
    ⟨(play rrcCfg {} (rrcHash ++ [(4, .publish ⟨[97, 47, 98], [9], none⟩)])).getD {}, by decide +kernel, by decide +kernel⟩,
    ⟨(play rrcCfg {} (rrcHash ++ [(4, .publish ⟨[98], [9], none⟩)])).getD {}, by decide +kernel, by decide +kernel⟩⟩
  rintro ⟨e, he⟩
  have hlog : ((play rrcCfg {} rrcHash).getD {}).log =
      [.initialized, .opened 1 [97, 47, 35], .status 1 .established] := by decide +kernel
  rw [hlog] at he
  simp at he

/-- **C46 is violated**: a stream with the filter `a/#` does not receive publishes on the topic `a`, which the filter
matches. -/
theorem C46_violated_parent : ∃ cfg c c' now msg id f fl tl, RrClient.Reachable cfg anything c ∧ c.phase = .active ∧
    Trace.opened id f ∈ c.log ∧ needs c.manager.log id f = true ∧ broker c.manager.log f = true ∧
    Levels f fl ∧ Levels msg.topic tl ∧ Matches fl tl ∧
    RrClient.Enabled c now (.publish msg) ∧ stepAt cfg { c with clock := now } now (.publish msg) = .ok c' ∧
    c'.log = c.log := by
  refine ⟨rrcCfg, (play rrcCfg {} rrcHash).getD {},
    (play rrcCfg {} (rrcHash ++ [(4, .publish ⟨[97], [9], none⟩)])).getD {}, 4, ⟨[97], [9], none⟩, 1, [97, 47, 35],
    split 47 [97, 47, 35], split 47 [97], play_anything .new (h := rrcHash) (by decide +kernel)
    (eq_some_getD _ (by decide +kernel)), by decide +kernel, by decide +kernel, by decide +kernel, by decide +kernel,
    split_levels _, split_levels _, by simp [split, Matches], enabled_sound (by decide +kernel), by decide +kernel,
    by decide +kernel⟩

end Mqtt.Props
