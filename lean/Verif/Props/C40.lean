import Verif.Callbacks5

/-!
C40: every attached listener gets each lifecycle event exactly once, before the client's own handler;
an incoming publish is offered to listeners most recent first until one accepts it, and to the
client's handler iff none does.  Attached are exactly the listeners the user holds.
-/
namespace Mqtt.Props.Callbacks5
open Mqtt.Callbacks5

variable {σ P E : Type}

/-! ### One event -/

/-- Listeners that have a lifecycle handler, in list order. -/
def lifecycleListeners (es : List (Entry σ P E)) : List Nat :=
  (es.filter fun e => e.callbacks.lifecycle.isSome).map (·.id)

/-- Listeners that have a publish handler, in list order. -/
def publishListeners (es : List (Entry σ P E)) : List Nat :=
  (es.filter fun e => e.callbacks.publish.isSome).map (·.id)

/-- What each lifecycle handler does to the world, in order. -/
def lifecycleEffect (es : List (Entry σ P E)) (h : ClientHandlers σ P E) (ev : E) (w : σ) : σ :=
  (es.filterMap (·.callbacks.lifecycle) ++ h.lifecycle.toList).foldl (fun w f => f w ev) w

/-- **C40, lifecycle**: the handlers called are all listeners' in order, once each, then the
client's, and the same event goes to each of them. -/
theorem C40_lifecycle (m : Manager σ P E) (h : ClientHandlers σ P E) (w : σ) (ev : E) :
    (m.onLifecycle h w ev).2 = (lifecycleListeners m.entries).map Callee.listener ++
        (if h.lifecycle.isSome then [Callee.client] else []) ∧
    (m.onLifecycle h w ev).1 = lifecycleEffect m.entries h ev w := by
  unfold Manager.onLifecycle
  generalize m.entries = es
  induction es generalizing w with
  | nil =>
    cases hl : h.lifecycle <;> simp [announce, lifecycleListeners, lifecycleEffect, hl]
  | cons e rest ih =>
    cases he : e.callbacks.lifecycle with
    | none =>
      have := ih w
      simp only [announce, lifecycleListeners, lifecycleEffect, he] at this ⊢
      simpa [he] using this
    | some f =>
      have := ih (f w ev)
      simp only [announce, lifecycleListeners, lifecycleEffect, he] at this ⊢
      simp [he, this]

/-- The world seen by the listener at the head of `later` when all of `earlier` declined. -/
def passed (earlier : List (Entry σ P E)) (p : P) (w : σ) : σ :=
  (earlier.filterMap (·.callbacks.publish)).foldl (fun w f => (f w p).1) w

/-- All of `earlier` decline, each asked in the world left by those before it. -/
def Declined (p : P) : List (Entry σ P E) → σ → Prop
  | [], _ => True
  | e :: rest, w =>
    match e.callbacks.publish with
    | none => Declined p rest w
    | some f => (f w p).2 = false ∧ Declined p rest (f w p).1

theorem passed_cons_none {e : Entry σ P E} (he : e.callbacks.publish = none)
    (es : List (Entry σ P E)) (p : P) (w : σ) : passed (e :: es) p w = passed es p w := by
  simp [passed, he]

theorem passed_cons_some {e : Entry σ P E} {f} (he : e.callbacks.publish = some f)
    (es : List (Entry σ P E)) (p : P) (w : σ) :
    passed (e :: es) p w = passed es p (f w p).1 := by
  simp [passed, he]

/-- **C40, publish**: either some listener accepts: it and those before it are called, in order,
nobody after it, and not the client's handler; or every listener declines and the client's handler
is called last. -/
theorem C40_publish (m : Manager σ P E) (h : ClientHandlers σ P E) (w : σ) (p : P) :
    (∃ earlier taker f later, m.entries = earlier ++ taker :: later ∧
        taker.callbacks.publish = some f ∧
        Declined p earlier w ∧ (f (passed earlier p w) p).2 = true ∧
        m.onPublish h w p = ((f (passed earlier p w) p).1,
          (publishListeners earlier ++ [taker.id]).map Callee.listener)) ∨
    (Declined p m.entries w ∧
        m.onPublish h w p =
          (match h.publish with
            | some f => f (passed m.entries p w) p
            | none => passed m.entries p w,
          (publishListeners m.entries).map Callee.listener ++
            (if h.publish.isSome then [Callee.client] else []))) := by
  unfold Manager.onPublish
  generalize m.entries = es
  induction es generalizing w with
  | nil =>
    right
    refine ⟨trivial, ?_⟩
    cases hp : h.publish <;> simp [offer, hp, publishListeners, passed]
  | cons e rest ih =>
    cases he : e.callbacks.publish with
    | none =>
      rcases ih w with ⟨earlier, taker, f, later, h1, h2, h3, h4, h5⟩ | ⟨h1, h2⟩
      · refine Or.inl ⟨e :: earlier, taker, f, later, by rw [h1]; rfl, h2, ?_, ?_, ?_⟩
        · simpa only [Declined, he] using h3
        · rw [passed_cons_none he]; exact h4
        · rw [passed_cons_none he]
          simp only [offer, he, h5]
          simp [publishListeners, he]
      · refine Or.inr ⟨by simpa only [Declined, he] using h1, ?_⟩
        rw [passed_cons_none he]
        simp only [offer, he, h2]
        simp [publishListeners, he]
    | some g =>
      by_cases hg : (g w p).2 = true
      · refine Or.inl ⟨[], e, g, rest, rfl, he, trivial, hg, ?_⟩
        simp [offer, he, hg, publishListeners, passed]
      · have hgf : (g w p).2 = false := by simpa using hg
        rcases ih (g w p).1 with ⟨earlier, taker, f, later, h1, h2, h3, h4, h5⟩ | ⟨h1, h2⟩
        · refine Or.inl ⟨e :: earlier, taker, f, later, by rw [h1]; rfl, h2, ?_, ?_, ?_⟩
          · simp only [Declined, he]; exact ⟨hgf, h3⟩
          · rw [passed_cons_some he]; exact h4
          · rw [passed_cons_some he]
            simp only [offer, he, hgf, h5]
            simp [publishListeners, he]
        · refine Or.inr ⟨by simp only [Declined, he]; exact ⟨hgf, h1⟩, ?_⟩
          rw [passed_cons_some he]
          simp only [offer, he, hgf, h2]
          simp [publishListeners, he]

/-! ### Who is attached -/

/-- Change one value of a function. -/
def upd (h : Nat → Nat) (i x : Nat) : Nat → Nat := fun j => if j = i then x else h j

/-- Histories of listeners: the user creates them, acquires and releases references they hold, and
the event loop runs tasks.  `held i` is the number of references the user holds on listener `i`,
`given` the callbacks each was created with. -/
inductive Reach : World σ P E → (Nat → Nat) → List (CallbackSet σ P E) → Prop
  | init : Reach {} (fun _ => 0) []
  | new {w h cs} (c : CallbackSet σ P E) : Reach w h cs →
      Reach (w.new c) (upd h w.listeners.length 1) (cs ++ [c])
  | acquire {w h cs} (i : Nat) : Reach w h cs → 0 < h i →
      Reach (w.acquire i) (upd h i (h i + 1)) cs
  | release {w h cs} (i : Nat) : Reach w h cs → 0 < h i →
      Reach (w.release i) (upd h i (h i - 1)) cs
  | run {w h cs} : Reach w h cs → Reach w.runTask h cs

/-- Initialize tasks in a queue. -/
def inits (q : List Task) : List Nat :=
  q.filterMap fun | .initialize i => some i | .terminate _ => none

/-- Terminate tasks in a queue. -/
def terms (q : List Task) : List Nat :=
  q.filterMap fun | .initialize _ => none | .terminate i => some i

/-- The listeners numbered below `k` that are not in `gone`, newest first, as entries. -/
def expectedEntries (k : Nat) (gone : List Nat) (cs : List (CallbackSet σ P E)) :
    List (Entry σ P E) :=
  (((List.range k).reverse.filter (fun i => decide (i ∉ gone))).filterMap fun i =>
    cs[i]?.map fun c => ⟨i + 1, c⟩)

/-- `k` listeners have been initialized. -/
structure Inv (k : Nat) (w : World σ P E) (h : Nat → Nat) (cs : List (CallbackSet σ P E)) : Prop where
  len : cs.length = w.listeners.length
  kle : k ≤ w.listeners.length
  nextId : w.manager.nextId = k + 1
  inits : inits w.queue = List.range' k (w.listeners.length - k)
  termsNodup : (terms w.queue ++ w.terminated).Nodup
  over : ∀ i, i ∈ terms w.queue ∨ i ∈ w.terminated ↔ i < k ∧ h i = 0
  beyond : ∀ i, w.listeners.length ≤ i → h i = 0
  fresh : ∀ i, k ≤ i → i < w.listeners.length → w.listeners[i]?.map (·.refs) = some (h i + 1)
  settled : ∀ i, i < k → w.listeners[i]?.map (fun l => (l.refs, l.setId)) = some (h i, i + 1)
  callbacks : w.listeners.map (·.callbacks) = cs
  entries : w.manager.entries = expectedEntries k w.terminated cs

theorem inits_append (a b : List Task) : inits (a ++ b) = inits a ++ inits b := by
  simp [inits]
theorem terms_append (a b : List Task) : terms (a ++ b) = terms a ++ terms b := by
  simp [terms]

theorem upd_self (h : Nat → Nat) (i x : Nat) : upd h i x i = x := by simp [upd]
theorem upd_ne (h : Nat → Nat) {i j : Nat} (x : Nat) (hn : j ≠ i) : upd h i x j = h j := by
  simp [upd, hn]

theorem expectedEntries_append (k : Nat) (gone : List Nat) (cs : List (CallbackSet σ P E))
    (c : CallbackSet σ P E) (hk : k ≤ cs.length) :
    expectedEntries k gone (cs ++ [c]) = expectedEntries k gone cs := by
  unfold expectedEntries
  have key : ∀ (l : List Nat) (f g : Nat → Option (Entry σ P E)), (∀ i ∈ l, f i = g i) →
      l.filterMap f = l.filterMap g := by
    intro l f g hfg
    induction l with
    | nil => rfl
    | cons a l ih =>
      rw [List.filterMap_cons, List.filterMap_cons, hfg a (by simp),
        ih (fun i hi => hfg i (List.mem_cons_of_mem _ hi))]
  apply key
  intro i hi
  simp only [List.mem_filter, List.mem_reverse, List.mem_range] at hi
  rw [List.getElem?_append_left (by omega)]

theorem expectedEntries_succ (k : Nat) (gone : List Nat) (cs : List (CallbackSet σ P E))
    (c : CallbackSet σ P E) (hk : cs[k]? = some c) (hg : k ∉ gone) :
    expectedEntries (k + 1) gone cs = ⟨k + 1, c⟩ :: expectedEntries k gone cs := by
  simp [expectedEntries, List.range_succ, hg, hk]

theorem expectedEntries_gone (k : Nat) (gone : List Nat) (i : Nat) (cs : List (CallbackSet σ P E))
    (hk : k ≤ cs.length) :
    removeEntry (i + 1) (expectedEntries k gone cs) = expectedEntries k (gone ++ [i]) cs := by
  induction k with
  | zero => simp [expectedEntries, removeEntry]
  | succ k ih =>
    have hc : cs[k]? = some cs[k] := List.getElem?_eq_getElem (by omega)
    by_cases hkg : k ∈ gone
    · have e1 : expectedEntries (k + 1) gone cs = expectedEntries k gone cs := by
        simp [expectedEntries, List.range_succ, hkg]
      have e2 : expectedEntries (k + 1) (gone ++ [i]) cs = expectedEntries k (gone ++ [i]) cs := by
        simp [expectedEntries, List.range_succ, hkg]
      rw [e1, e2]; exact ih (by omega)
    · rw [expectedEntries_succ k gone cs _ hc hkg]
      by_cases hik : i = k
      · subst hik
        have e2 : expectedEntries (i + 1) (gone ++ [i]) cs = expectedEntries i (gone ++ [i]) cs := by
          simp [expectedEntries, List.range_succ]
        rw [e2]
        simp only [removeEntry, if_true]
        unfold expectedEntries
        congr 1
        apply List.filter_congr
        intro j hj
        simp only [List.mem_reverse, List.mem_range] at hj
        have : j ≠ i := by omega
        simp [this]
      · have hne : ¬ (k + 1 = i + 1) := by omega
        have hk2 : k ∉ gone ++ [i] := by simp [hkg]; omega
        rw [expectedEntries_succ k _ cs _ hc hk2]
        simp only [removeEntry, hne, if_false]
        rw [ih (by omega)]

theorem modify_get (w : World σ P E) (i : Nat) (f : Listener σ P E → Listener σ P E) (j : Nat) :
    (w.modify i f).listeners[j]? = (if i = j then f <$> w.listeners[j]? else w.listeners[j]?) := by
  simp only [World.modify, List.getElem?_modify]
  by_cases h : i = j <;> simp [h]

theorem modify_map (w : World σ P E) (i : Nat) (f : Listener σ P E → Listener σ P E)
    (hf : ∀ l, (f l).callbacks = l.callbacks) :
    (w.modify i f).listeners.map (·.callbacks) = w.listeners.map (·.callbacks) := by
  simp only [World.modify]
  apply List.ext_getElem?
  intro j
  simp only [List.getElem?_map, List.getElem?_modify]
  by_cases h : i = j
  · subst h; cases w.listeners[i]? <;> simp [hf]
  · simp [h]

theorem inv_init : Inv 0 ({} : World σ P E) (fun _ => 0) [] where
  len := rfl
  kle := Nat.le_refl _
  nextId := rfl
  inits := rfl
  termsNodup := by simp [terms]
  over := by intro i; simp [terms]
  beyond := fun _ _ => rfl
  fresh := by intro i _ h; simp at h
  settled := by intro i h; omega
  callbacks := rfl
  entries := rfl

theorem inv_new {k} {w : World σ P E} {h cs} (I : Inv k w h cs) (c : CallbackSet σ P E) :
    Inv k (w.new c) (upd h w.listeners.length 1) (cs ++ [c]) where
  len := by simp [World.new, I.len]
  kle := by have := I.kle; simp only [World.new, List.length_append, List.length_singleton]; omega
  nextId := I.nextId
  inits := by
    have := I.kle
    simp only [World.new, inits_append, I.inits, List.length_append, List.length_singleton]
    rw [show w.listeners.length + 1 - k = (w.listeners.length - k) + 1 by omega, List.range'_concat]
    simp only [inits, List.filterMap_cons, List.filterMap_nil]
    congr 2; omega
  termsNodup := by
    have : terms (w.new c).queue = terms w.queue := by
      simp only [World.new, terms_append]; simp [terms]
    rw [this]; exact I.termsNodup
  over := by
    intro i
    have : terms (w.new c).queue = terms w.queue := by
      simp only [World.new, terms_append]; simp [terms]
    rw [this]
    have h1 := I.over i
    have h2 := I.kle
    by_cases hi : i = w.listeners.length
    · subst hi
      rw [upd_self]
      constructor
      · intro hx; have := h1.1 hx; omega
      · omega
    · rw [upd_ne _ _ hi]; exact h1
  beyond := by
    intro i hi
    simp only [World.new, List.length_append, List.length_singleton] at hi
    rw [upd_ne _ _ (by omega)]; exact I.beyond i (by omega)
  fresh := by
    intro i h1 h2
    simp only [World.new, List.length_append, List.length_singleton] at h2 ⊢
    by_cases hi : i = w.listeners.length
    · subst hi; simp [upd_self]
    · rw [upd_ne _ _ hi, List.getElem?_append_left (by omega)]
      exact I.fresh i h1 (by omega)
  settled := by
    intro i h1
    have := I.kle
    simp only [World.new]
    rw [upd_ne _ _ (by omega), List.getElem?_append_left (by omega)]
    exact I.settled i h1
  callbacks := by simp [World.new, I.callbacks]
  entries := by
    rw [expectedEntries_append _ _ _ _ (by have := I.len; have := I.kle; omega)]
    exact I.entries

theorem held_lt {k} {w : World σ P E} {h cs} (I : Inv k w h cs) {i} (hi : 0 < h i) :
    i < w.listeners.length := by
  rcases Nat.lt_or_ge i w.listeners.length with h1 | h1
  · exact h1
  · have := I.beyond i h1; omega

theorem inv_acquire {k} {w : World σ P E} {h cs} (I : Inv k w h cs) {i} (hi : 0 < h i) :
    Inv k (w.acquire i) (upd h i (h i + 1)) cs where
  len := by simp [World.acquire, World.modify, I.len]
  kle := by simp only [World.acquire, World.modify, List.length_modify]; exact I.kle
  nextId := I.nextId
  inits := by
    simp only [World.acquire, World.modify, List.length_modify]; exact I.inits
  termsNodup := I.termsNodup
  over := by
    intro j
    have := I.over j
    simp only [World.acquire, World.modify]
    by_cases hj : j = i
    · subst hj
      rw [upd_self, this]; omega
    · rw [upd_ne _ _ hj]; exact this
  beyond := by
    intro j hj
    simp only [World.acquire, World.modify, List.length_modify] at hj
    have := held_lt I hi
    rw [upd_ne _ _ (by omega)]; exact I.beyond j hj
  fresh := by
    intro j h1 h2
    simp only [World.acquire, World.modify, List.length_modify] at h2
    have := I.fresh j h1 h2
    rw [World.acquire, modify_get]
    by_cases hj : i = j
    · subst hj
      obtain ⟨l, hl, hr⟩ := Option.map_eq_some_iff.1 this
      simp [hl, upd_self, hr]
    · rw [if_neg hj, upd_ne _ _ (by omega)]; exact this
  settled := by
    intro j h1
    have := I.settled j h1
    rw [World.acquire, modify_get]
    by_cases hj : i = j
    · subst hj
      obtain ⟨l, hl, hr⟩ := Option.map_eq_some_iff.1 this
      simp only [Prod.mk.injEq] at hr
      simp [hl, upd_self, hr.1, hr.2]
    · rw [if_neg hj, upd_ne _ _ (by omega)]; exact this
  callbacks := by exact (modify_map w i (fun l => { l with refs := l.refs + 1 }) (fun _ => rfl)).trans I.callbacks
  entries := I.entries

theorem release_eq {w : World σ P E} {i} {l} (hl : w.listeners[i]? = some l) :
    w.release i = { w with
      listeners := w.listeners.modify i fun l => { l with refs := l.refs - 1 }
      queue := w.queue ++ (if l.refs = 1 then [.terminate i] else []) } := by
  simp only [World.release, hl, World.modify]
  split <;> simp

theorem terms_term (q : List Task) (b : Prop) [Decidable b] (i : Nat) :
    terms (q ++ if b then [.terminate i] else []) = terms q ++ if b then [i] else [] := by
  rw [terms_append]; congr 1; split <;> simp [terms]

theorem inits_term (q : List Task) (b : Prop) [Decidable b] (i : Nat) :
    inits (q ++ if b then [.terminate i] else []) = inits q := by
  rw [inits_append]; split <;> simp [inits]

theorem inv_release {k} {w : World σ P E} {h cs} (I : Inv k w h cs) {i} (hi : 0 < h i) :
    Inv k (w.release i) (upd h i (h i - 1)) cs := by
  have hlt := held_lt I hi
  have hl : w.listeners[i]? = some w.listeners[i] := List.getElem?_eq_getElem hlt
  generalize w.listeners[i] = l at hl
  rw [release_eq hl]
  have hrefs : l.refs = if k ≤ i then h i + 1 else h i := by
    split
    · rename_i hk
      have := I.fresh i hk hlt
      rw [hl] at this; simpa using this
    · rename_i hk
      have := I.settled i (by omega)
      rw [hl] at this
      simp only [Option.map_some, Option.some.injEq, Prod.mk.injEq] at this
      exact this.1
  have hno : ¬ (i ∈ terms w.queue ∨ i ∈ w.terminated) := by
    rw [I.over i]; omega
  have hone : l.refs = 1 ↔ i < k ∧ h i = 1 := by rw [hrefs]; split <;> omega
  refine ⟨?_, ?_, I.nextId, ?_, ?_, ?_, ?_, ?_, ?_, ?_, I.entries⟩
  · simp [I.len]
  · simpa using I.kle
  · rw [inits_term]; simpa using I.inits
  · simp only [terms_term]
    by_cases h1 : l.refs = 1
    · simp only [h1, if_true]
      have hn := I.termsNodup
      rw [List.append_assoc]
      refine (List.Perm.nodup_iff (l₁ := i :: (terms w.queue ++ w.terminated)) ?_).1 (List.nodup_cons.2 ⟨?_, hn⟩)
      · rw [List.singleton_append]; exact (List.perm_middle).symm
      · rw [List.mem_append]; exact hno
    · simpa [h1] using I.termsNodup
  · intro j
    simp only [terms_term]
    have hj := I.over j
    by_cases hji : j = i
    · subst hji
      rw [upd_self]
      by_cases h1 : l.refs = 1
      · have := hone.1 h1
        simp [h1]; omega
      · have h2 : ¬ (j < k ∧ h j = 1) := fun hx => h1 (hone.2 hx)
        simp only [h1, if_false, List.append_nil]
        rw [hj]; omega
    · rw [upd_ne _ _ hji]
      by_cases h1 : l.refs = 1
      · simp only [h1, if_true, List.mem_append, List.mem_singleton, hji, or_false]; exact hj
      · simp only [h1, if_false, List.append_nil]; exact hj
  · intro j hj
    simp only [List.length_modify] at hj
    rw [upd_ne _ _ (by omega)]; exact I.beyond j hj
  · intro j h1 h2
    simp only [List.length_modify] at h2
    have := I.fresh j h1 h2
    have e := modify_get w i (fun l => { l with refs := l.refs - 1 }) j
    simp only [World.modify] at e
    rw [e]
    by_cases hj : i = j
    · subst hj
      obtain ⟨l', hl', hr⟩ := Option.map_eq_some_iff.1 this
      simp [hl', upd_self, hr]; omega
    · rw [if_neg hj, upd_ne _ _ (by omega)]; exact this
  · intro j h1
    have := I.settled j h1
    have e := modify_get w i (fun l => { l with refs := l.refs - 1 }) j
    simp only [World.modify] at e
    rw [e]
    by_cases hj : i = j
    · subst hj
      obtain ⟨l', hl', hr⟩ := Option.map_eq_some_iff.1 this
      simp only [Prod.mk.injEq] at hr
      simp [hl', upd_self, hr.1, hr.2]
    · rw [if_neg hj, upd_ne _ _ (by omega)]; exact this
  · have e := modify_map w i (fun l => { l with refs := l.refs - 1 }) (fun _ => rfl)
    simp only [World.modify] at e
    rw [e]; exact I.callbacks

theorem inv_run {k} {w : World σ P E} {h cs} (I : Inv k w h cs)
    (hn : w.listeners.length < 18446744073709551615) : ∃ k', Inv k' w.runTask h cs := by
  unfold World.runTask
  split
  · exact ⟨k, I⟩
  · rename_i i rest hq
    have hin := I.inits
    rw [hq] at hin
    have hkle := I.kle
    have hlt : k < w.listeners.length := by
      rcases Nat.lt_or_ge k w.listeners.length with h1 | h1
      · exact h1
      · have : w.listeners.length - k = 0 := by omega
        rw [this] at hin; simp [inits] at hin
    rw [show w.listeners.length - k = (w.listeners.length - (k + 1)) + 1 by omega,
      List.range'_succ] at hin
    simp only [inits, List.filterMap_cons, List.cons.injEq] at hin
    obtain ⟨hik, hrest⟩ := hin
    subst hik
    have hl : w.listeners[i]? = some w.listeners[i] := List.getElem?_eq_getElem hlt
    generalize w.listeners[i] = l at hl
    have hf := I.fresh i (Nat.le_refl _) hlt
    rw [hl] at hf
    simp only [Option.map_some, Option.some.injEq] at hf
    have hcb : cs[i]? = some l.callbacks := by
      rw [← I.callbacks, List.getElem?_map, hl]; rfl
    have htq : terms w.queue = terms rest := by rw [hq]; simp [terms]
    have hng : i ∉ w.terminated := fun hx => by have := (I.over i).1 (Or.inr hx); omega
    have hnt : i ∉ terms rest := fun hx => by
      have := (I.over i).1 (Or.inl (htq ▸ hx)); omega
    simp only [hl, Manager.pushFront]
    have hl' : (World.modify { w with queue := rest, manager :=
        ⟨⟨w.manager.nextId, l.callbacks⟩ :: w.manager.entries,
          (w.manager.nextId + 1) % 18446744073709551616⟩ } i
        (fun l => { l with setId := w.manager.nextId })).listeners[i]? =
        some { l with setId := w.manager.nextId } := by
      rw [modify_get, if_pos rfl]; simp [hl]
    rw [release_eq hl']
    refine ⟨i + 1, ?_, ?_, ?_, ?_, ?_, ?_, ?_, ?_, ?_, ?_, ?_⟩
    · simp [World.modify, I.len]
    · simp [World.modify]; omega
    · simp only [World.modify, I.nextId]; omega
    · simp only [World.modify, inits_term, List.length_modify]; exact hrest
    · simp only [World.modify, terms_term, hf]
      have hnd := I.termsNodup
      rw [htq] at hnd
      by_cases h0 : h i = 0
      · simp only [h0, Nat.zero_add, if_true]
        rw [List.append_assoc]
        refine (List.Perm.nodup_iff (l₁ := i :: (terms rest ++ w.terminated)) ?_).1 (List.nodup_cons.2 ⟨?_, hnd⟩)
        · rw [List.singleton_append]; exact (List.perm_middle).symm
        · rw [List.mem_append]; exact fun hx => hx.elim hnt hng
      · have : ¬ (h i + 1 = 1) := by omega
        simp only [this, if_false, List.append_nil]; exact hnd
    · intro j
      simp only [World.modify, terms_term, hf]
      have hj := I.over j
      rw [htq] at hj
      by_cases hji : j = i
      · subst hji
        by_cases h0 : h j = 0
        · simp [h0]
        · have : ¬ (h j + 1 = 1) := by omega
          simp only [this, if_false, List.append_nil]
          constructor
          · intro hx; exact absurd hx (fun hx => hx.elim hnt hng)
          · omega
      · by_cases h0 : h i + 1 = 1
        · simp only [h0, if_true, List.mem_append, List.mem_singleton, hji, or_false]
          rw [hj]; omega
        · simp only [h0, if_false, List.append_nil]
          rw [hj]; omega
    · intro j hj
      simp only [World.modify, List.length_modify] at hj
      exact I.beyond j hj
    · intro j h1 h2
      simp only [World.modify, List.length_modify] at h2
      have := I.fresh j (by omega) h2
      have hji : ¬ i = j := by omega
      simp only [World.modify, List.getElem?_modify, hji, if_false]
      simpa using this
    · intro j h1
      by_cases hji : i = j
      · subst hji
        simp [World.modify, hl, hf, I.nextId]
      · have := I.settled j (by omega)
        simp only [World.modify, List.getElem?_modify, hji, if_false]
        simpa using this
    · have e1 := modify_map w i (fun l => { l with setId := w.manager.nextId }) (fun _ => rfl)
      have e2 := modify_map (w.modify i (fun l => { l with setId := w.manager.nextId })) i
        (fun l => { l with refs := l.refs - 1 }) (fun _ => rfl)
      rw [← I.callbacks, ← e1, ← e2]
      rfl
    · simp only [World.modify]
      rw [expectedEntries_succ i _ cs _ hcb hng, I.nextId, I.entries]
  · rename_i i rest hq
    have hit : i ∈ terms w.queue := by rw [hq]; simp [terms]
    obtain ⟨hik, hi0⟩ := (I.over i).1 (Or.inl hit)
    have hkle := I.kle
    have hl : w.listeners[i]? = some w.listeners[i] := List.getElem?_eq_getElem (by omega)
    generalize w.listeners[i] = l at hl
    have hs := I.settled i hik
    rw [hl] at hs
    simp only [Option.map_some, Option.some.injEq, Prod.mk.injEq] at hs
    have htq : terms w.queue = i :: terms rest := by rw [hq]; simp [terms]
    have hiq : inits w.queue = inits rest := by rw [hq]; simp [inits]
    simp only [hl]
    have hnd := I.termsNodup
    rw [htq, List.cons_append, List.nodup_cons, List.mem_append] at hnd
    refine ⟨k, ?_, ?_, ?_, ?_, ?_, ?_, ?_, ?_, ?_, ?_, ?_⟩
    · simp [World.modify, I.len]
    · simpa [World.modify] using I.kle
    · exact I.nextId
    · simp only [World.modify, List.length_modify]; rw [← hiq]; exact I.inits
    · simp only [World.modify]
      rw [← List.append_assoc]
      refine (List.Perm.nodup_iff (l₁ := i :: (terms rest ++ w.terminated)) ?_).1 (List.nodup_cons.2 ⟨?_, hnd.2⟩)
      · exact (List.perm_append_singleton _ _).symm
      · rw [List.mem_append]; exact hnd.1
    · intro j
      simp only [World.modify]
      rw [← I.over j, htq]
      simp only [List.mem_append, List.mem_cons, List.not_mem_nil, or_false]
      constructor
      · rintro (h1 | h1 | h1)
        · exact Or.inl (Or.inr h1)
        · exact Or.inr h1
        · exact Or.inl (Or.inl h1)
      · rintro ((h1 | h1) | h1)
        · exact Or.inr (Or.inr h1)
        · exact Or.inl h1
        · exact Or.inr (Or.inl h1)
    · intro j hj
      simp only [World.modify, List.length_modify] at hj
      exact I.beyond j hj
    · intro j h1 h2
      simp only [World.modify, List.length_modify] at h2
      have := I.fresh j h1 h2
      have hji : ¬ i = j := by omega
      simp only [World.modify, List.getElem?_modify, hji, if_false]
      simpa using this
    · intro j h1
      have := I.settled j h1
      simp only [World.modify, List.getElem?_modify]
      by_cases hji : i = j
      · subst hji
        simp [hl, hs.1, hs.2]
      · simp only [hji, if_false]
        simpa using this
    · have e := modify_map w i (fun l => { l with alive := false }) (fun _ => rfl)
      rw [← I.callbacks, ← e]; rfl
    · simp only [World.modify, Manager.remove]
      rw [hs.2, I.entries, expectedEntries_gone _ _ _ _ (by have := I.len; omega)]

theorem length_mono {w : World σ P E} : w.runTask.listeners.length = w.listeners.length := by
  unfold World.runTask
  split
  · rfl
  · split
    · rfl
    · simp only [World.release, World.modify]
      split
      · simp
      · split <;> simp
  · split
    · rfl
    · simp [World.modify]

theorem reach_inv {w : World σ P E} {h cs} (R : Reach w h cs)
    (hn : w.listeners.length < 18446744073709551615) : ∃ k, Inv k w h cs := by
  induction R with
  | init => exact ⟨0, inv_init⟩
  | new c _ ih =>
    simp only [World.new, List.length_append, List.length_singleton] at hn
    obtain ⟨k, I⟩ := ih (by omega)
    exact ⟨k, inv_new I c⟩
  | acquire i _ hi ih =>
    obtain ⟨k, I⟩ := ih (by simpa [World.acquire, World.modify] using hn)
    exact ⟨k, inv_acquire I hi⟩
  | @release w h cs i _ hi ih =>
    have e : (w.release i).listeners.length = w.listeners.length := by
      simp only [World.release, World.modify]
      split
      · rfl
      · split <;> simp
    rw [e] at hn
    obtain ⟨k, I⟩ := ih hn
    exact ⟨k, inv_release I hi⟩
  | run _ ih =>
    rw [length_mono] at hn
    obtain ⟨k, I⟩ := ih hn
    exact inv_run I hn

/-- The listeners created with callbacks `cs` that the user still holds, newest first. -/
def heldEntries (held : Nat → Nat) (cs : List (CallbackSet σ P E)) : List (Entry σ P E) :=
  ((List.range cs.length).reverse.filter (fun i => decide (0 < held i))).filterMap fun i =>
    cs[i]?.map fun c => ⟨i + 1, c⟩

/-- **C40, attachment**: once the event loop has run the pending tasks, the attached listeners are
exactly those the user holds, newest first, each with the callbacks it was created with.  (Listener
number `i` has callback set id `i + 1`.) -/
theorem C40_attached {w : World σ P E} {held cs} (R : Reach w held cs)
    (hn : w.listeners.length < 18446744073709551615) (hq : w.queue = []) :
    w.manager.entries = heldEntries held cs := by
  obtain ⟨k, I⟩ := reach_inv R hn
  have hk : k = w.listeners.length := by
    have h1 := I.inits; have h2 := I.kle
    rw [hq] at h1
    have h3 := congrArg List.length h1
    simp only [List.length_range', inits, List.filterMap_nil, List.length_nil] at h3
    omega
  rw [I.entries, expectedEntries, heldEntries, I.len, hk]
  congr 1
  apply List.filter_congr
  intro i hi
  simp only [List.mem_reverse, List.mem_range] at hi
  have := I.over i
  rw [hq] at this
  simp only [terms, List.filterMap_nil, List.not_mem_nil, false_or] at this
  simp only [this]
  by_cases h0 : held i = 0
  · have : ¬ 0 < held i := by omega
    simp [h0]; omega
  · have : 0 < held i := by omega
    simp [h0, this]

/-- **C40, termination**: a listener's termination callback runs at most once, only after the user
has released it, and exactly once when the event loop has run the pending tasks; a terminated
listener is no longer attached. -/
theorem C40_terminated {w : World σ P E} {held cs} (R : Reach w held cs)
    (hn : w.listeners.length < 18446744073709551615) :
    w.terminated.Nodup ∧ (∀ i ∈ w.terminated, i < w.listeners.length ∧ held i = 0) ∧
    (∀ i ∈ w.terminated, ∀ e ∈ w.manager.entries, e.id ≠ i + 1) ∧
    (w.queue = [] → ∀ i, i < w.listeners.length → held i = 0 → i ∈ w.terminated) := by
  obtain ⟨k, I⟩ := reach_inv R hn
  have hk2 := I.kle
  refine ⟨(List.nodup_append.1 I.termsNodup).2.1, ?_, ?_, ?_⟩
  · intro i hi
    have := (I.over i).1 (Or.inr hi)
    exact ⟨by omega, this.2⟩
  · intro i hi e he
    rw [I.entries, expectedEntries] at he
    simp only [List.mem_filterMap, List.mem_filter, List.mem_reverse, List.mem_range,
      decide_eq_true_eq, Option.map_eq_some_iff] at he
    obtain ⟨j, ⟨_, hj⟩, c, _, rfl⟩ := he
    simp only
    intro hx
    have : j = i := by omega
    subst this; exact hj hi
  · intro hq i hi h0
    have h1 := I.inits
    rw [hq] at h1
    have h3 := congrArg List.length h1
    simp only [List.length_range', inits, List.filterMap_nil, List.length_nil] at h3
    have := (I.over i).2 ⟨by omega, h0⟩
    rw [hq] at this
    simpa [terms] using this

/-- No entry appears twice. -/
theorem heldEntries_nodup (held : Nat → Nat) (cs : List (CallbackSet σ P E)) :
    ((heldEntries held cs).map (·.id)).Pairwise (· > ·) := by
  unfold heldEntries
  rw [List.map_filterMap]
  apply List.Pairwise.filterMap (R := fun a b : Nat => a > b)
  · intro a a' haa b hb b' hb'
    simp only [Option.map_map, Option.map_eq_some_iff] at hb hb'
    obtain ⟨_, _, rfl⟩ := hb
    obtain ⟨_, _, rfl⟩ := hb'
    simp only [Function.comp]; omega
  · apply List.Pairwise.filter
    rw [List.pairwise_reverse]
    exact List.pairwise_lt_range

/-- **C40**: in any history, once pending tasks have run, a lifecycle event reaches every listener
the user holds that has a handler for it exactly once, newest first, and then the client's handler;
a listener that is not held gets nothing. -/
theorem C40_every_listener {w : World σ P E} {held cs} (R : Reach w held cs)
    (hn : w.listeners.length < 18446744073709551615) (hq : w.queue = [])
    (hs : ClientHandlers σ P E) (s : σ) (ev : E) :
    (∀ i, ((w.manager.onLifecycle hs s ev).2.count (.listener (i + 1))) =
      if 0 < held i ∧ (cs[i]?.any fun c => c.lifecycle.isSome) then 1 else 0) ∧
    (hs.lifecycle.isSome → (w.manager.onLifecycle hs s ev).2.getLast? = some .client) := by
  obtain ⟨h1, _⟩ := C40_lifecycle w.manager hs s ev
  have hen := C40_attached R hn hq
  rw [h1, hen]
  refine ⟨?_, fun hc => by simp [hc]⟩
  intro i
  have hnd : ((lifecycleListeners (heldEntries held cs)).map Callee.listener).Nodup := by
    have := heldEntries_nodup held cs
    have h2 : (lifecycleListeners (heldEntries held cs)).Pairwise (· > ·) := by
      unfold lifecycleListeners
      exact List.Pairwise.sublist (List.Sublist.map _ List.filter_sublist) this
    rw [List.Nodup, List.pairwise_map]
    exact h2.imp (fun hab hx => by simp only [Callee.listener.injEq] at hx; omega)
  rw [List.count_append]
  have hcl : (if hs.lifecycle.isSome = true then [Callee.client] else []).count (.listener (i + 1)) = 0 := by
    split <;> simp
  rw [hcl, Nat.add_zero, List.Nodup.count hnd]
  have hlen : cs.length = w.listeners.length := by
    obtain ⟨k, I⟩ := reach_inv R hn; exact I.len
  have hmem : Callee.listener (i + 1) ∈ (lifecycleListeners (heldEntries held cs)).map Callee.listener ↔
      0 < held i ∧ (cs[i]?.any fun c => c.lifecycle.isSome) = true := by
    simp only [lifecycleListeners, heldEntries, List.mem_map, List.mem_filter, List.mem_filterMap,
      List.mem_reverse, List.mem_range, decide_eq_true_eq, Option.map_eq_some_iff, Callee.listener.injEq]
    constructor
    · rintro ⟨_, ⟨e, ⟨⟨j, ⟨hj, hheld⟩, c, hc, rfl⟩, hsome⟩, rfl⟩, hx⟩
      simp only at hx hsome
      have : j = i := by omega
      subst this
      exact ⟨hheld, by simpa [hc] using hsome⟩
    · rintro ⟨hheld, hany⟩
      cases hc : cs[i]? with
      | none => simp [hc] at hany
      | some c =>
        refine ⟨i + 1, ⟨⟨i + 1, c⟩, ⟨⟨i, ⟨?_, hheld⟩, c, hc, rfl⟩, ?_⟩, rfl⟩, rfl⟩
        · exact (List.getElem?_eq_some_iff.1 hc).1
        · simpa [hc] using hany
  by_cases hx : 0 < held i ∧ (cs[i]?.any fun c => c.lifecycle.isSome) = true
  · rw [if_pos (hmem.2 hx)]
    simp [hx.1, hx.2]
  · rw [if_neg (fun hy => hx (hmem.1 hy))]
    by_cases h0 : 0 < held i
    · have : ¬ (cs[i]?.any fun c => c.lifecycle.isSome) = true := fun hy => hx ⟨h0, hy⟩
      simp [this]
    · simp [h0]

/-! Concrete cases: two listeners, the second of which takes publishes longer than one byte. -/

def sampleFirst : CallbackSet (List String) Bytes Nat :=
  ⟨some fun w _ => (w ++ ["first"], false), some fun w _ => w ++ ["first"]⟩
def sampleSecond : CallbackSet (List String) Bytes Nat :=
  ⟨some fun w p => (w ++ ["second"], decide (1 < p.length)), some fun w _ => w ++ ["second"]⟩
def sampleClient : ClientHandlers (List String) Bytes Nat :=
  ⟨some fun w _ => w ++ ["client"], some fun w _ => w ++ ["client"]⟩

/-- Both created and initialized. -/
def sampleWorld : World (List String) Bytes Nat :=
  ((World.new (World.new {} sampleFirst) sampleSecond).runTask).runTask

example : ∃ held, Reach sampleWorld held [sampleFirst, sampleSecond] ∧ sampleWorld.queue = [] ∧
    held 0 = 1 ∧ held 1 = 1 :=
  ⟨_, .run (.run (.new sampleSecond (.new sampleFirst .init))), rfl, rfl, rfl⟩

example : (sampleWorld.manager.onPublish sampleClient [] [1, 2]).1 = ["second"] := by decide
example : (sampleWorld.manager.onPublish sampleClient [] [1]).1 = ["second", "first", "client"] := by
  decide
example : (sampleWorld.manager.onLifecycle sampleClient [] 7).1 = ["second", "first", "client"] := by
  decide
example : (((sampleWorld.release 1).runTask).manager.onLifecycle sampleClient [] 7).1 =
    ["first", "client"] := by decide

end Mqtt.Props.Callbacks5
