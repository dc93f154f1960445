import Verif.Metrics
import Verif.Props.C56

/-!
C57: SDK metrics in the user name.

How the service reads a user name: everything after the last `?` is a list of `key=value` parameters separated
by `&`; a `Metadata` value is a list of `key=value` entries separated by `;` in parentheses.
-/
namespace Mqtt.Props
open Mqtt Mqtt.Spec Mqtt.V5 Mqtt.Metrics

/-- `t` is `l1 c l2 c ... ln` and no piece contains `c`. -/
def Pieces (c : UInt8) (t : Bytes) (ls : List Bytes) : Prop :=
  ls ≠ [] ∧ (∀ l ∈ ls, c ∉ l) ∧ t = (ls.intersperse [c]).flatten

/-- `key=value`, or a key alone. -/
def KeyValue (piece : Bytes) (p : Param) : Prop :=
  (61 : UInt8) ∉ p.key ∧ (piece = p.key ++ 61 :: p.value ∨ (p.value = [] ∧ piece = p.key))

inductive KeyValues : List Bytes → List Param → Prop where
  | nil : KeyValues [] []
  | skip {ls ps} : KeyValues ls ps → KeyValues ([] :: ls) ps
  | cons {l p ls ps} : l ≠ [] → KeyValue l p → KeyValues ls ps → KeyValues (l :: ls) (p :: ps)

/-- The user name `u` has the base `base` and the parameters `ps`. -/
def Query (u base : Bytes) (ps : List Param) : Prop :=
  ((63 : UInt8) ∉ u ∧ base = u ∧ ps = []) ∨
  ∃ q ls, u = base ++ 63 :: q ∧ (63 : UInt8) ∉ q ∧ Pieces 38 q ls ∧ KeyValues ls ps

/-- The `Metadata` value `v` has the entries `es`. -/
def Entries (v : Bytes) (es : List Param) : Prop :=
  ∃ c ls, v = 40 :: (c ++ [41]) ∧ Pieces 59 c ls ∧ KeyValues ls es

/-- First value for a key. -/
def first (ps : List Param) (k : Bytes) : Option Bytes := (ps.find? (fun p => p.key = k)).map Param.value

/-! ### Reading -/

theorem pieces_split (c : UInt8) (t : Bytes) : Pieces c t (split c t) := by
  refine ⟨split_ne_nil c t, ?_⟩
  induction t with
  | nil => simp [split]
  | cons b bs ih =>
    obtain ⟨h1, h2⟩ := ih
    unfold split
    have hne := split_ne_nil c bs
    split
    · rename_i hb
      subst hb
      refine ⟨?_, ?_⟩
      · intro l hl
        rcases List.mem_cons.1 hl with h | h
        · subst h; simp
        · exact h1 l h
      · cases hs : split b bs with
        | nil => exact absurd hs hne
        | cons l ls =>
          rw [hs] at h2
          rw [List.intersperse_cons_cons]
          simp [← h2]
    · rename_i hb
      cases hs : split c bs with
      | nil => exact absurd hs hne
      | cons l ls =>
        rw [hs] at h1 h2
        simp only
        refine ⟨?_, ?_⟩
        · intro x hx
          rcases List.mem_cons.1 hx with h | h
          · subst h
            simp only [List.mem_cons, not_or]
            exact ⟨fun h => hb h.symm, h1 l (by simp)⟩
          · exact h1 x (by simp [h])
        · cases ls with
          | nil => simp at h2 ⊢; exact h2
          | cons m ms =>
            rw [List.intersperse_cons_cons] at h2 ⊢
            simp at h2 ⊢
            exact h2

theorem split_no {c : UInt8} {a : Bytes} (h : c ∉ a) : split c a = [a] := by
  induction a with
  | nil => simp [split]
  | cons x xs ih =>
    simp only [List.mem_cons, not_or] at h
    have hx : ¬ x = c := fun e => h.1 e.symm
    simp [split, hx, ih h.2]

theorem split_append {c : UInt8} {a : Bytes} (h : c ∉ a) (b : Bytes) : split c (a ++ c :: b) = a :: split c b := by
  induction a with
  | nil => simp [split]
  | cons x xs ih =>
    simp only [List.mem_cons, not_or] at h
    have hx : ¬ x = c := fun e => h.1 e.symm
    simp [split, hx, ih h.2]

theorem split_of_pieces {c : UInt8} {t : Bytes} {ls : List Bytes} (h : Pieces c t ls) : split c t = ls := by
  obtain ⟨hne, hno, rfl⟩ := h
  induction ls with
  | nil => exact absurd rfl hne
  | cons l ls ih =>
    cases ls with
    | nil => simp; exact split_no (hno l (by simp))
    | cons m ms =>
      rw [List.intersperse_cons_cons]
      have := ih (by simp) (fun x hx => hno x (by simp [hx]))
      simp only [List.flatten_cons, List.singleton_append] at this ⊢
      rw [split_append (hno l (by simp)), this]

theorem cut_spec (p : Bytes) : KeyValue p (cut p) := by
  unfold KeyValue
  induction p with
  | nil => simp [cut]
  | cons b bs ih =>
    unfold cut
    split
    · rename_i h; subst h; simp
    · rename_i h
      obtain ⟨h1, h2⟩ := ih
      refine ⟨?_, ?_⟩
      · simp only [List.mem_cons, not_or]; exact ⟨fun e => h e.symm, h1⟩
      · rcases h2 with h2 | ⟨h2, h3⟩
        · exact .inl (by simp only [List.cons_append]; rw [← h2])
        · exact .inr ⟨h2, by simp only; rw [← h3]⟩

theorem keyValue_cut {l : Bytes} {p : Param} (h : KeyValue l p) : cut l = p := by
  obtain ⟨h1, h2⟩ := h
  rcases h2 with rfl | ⟨h2, rfl⟩
  · have : ∀ k : Bytes, (61 : UInt8) ∉ k → cut (k ++ 61 :: p.value) = ⟨k, p.value⟩ := by
      intro k hk
      induction k with
      | nil => simp [cut]
      | cons x xs ih =>
        simp only [List.mem_cons, not_or] at hk
        have hx : ¬ x = 61 := fun e => hk.1 e.symm
        simp [cut, hx, ih hk.2]
    exact this _ h1
  · have : ∀ k : Bytes, (61 : UInt8) ∉ k → cut k = ⟨k, []⟩ := by
      intro k hk
      induction k with
      | nil => simp [cut]
      | cons x xs ih =>
        simp only [List.mem_cons, not_or] at hk
        have hx : ¬ x = 61 := fun e => hk.1 e.symm
        simp [cut, hx, ih hk.2]
    rw [this _ h1, ← h2]

theorem keyValues_iff (ls : List Bytes) (ps : List Param) :
    KeyValues ls ps ↔ (ls.filter (fun p => p.length ≠ 0)).map cut = ps := by
  constructor
  · intro h
    induction h with
    | nil => rfl
    | skip _ ih => simpa using ih
    | @cons l p ls ps hne hkv _ ih =>
      have : l.length ≠ 0 := fun h => hne (List.length_eq_zero_iff.1 h)
      rw [List.filter_cons_of_pos (by simp [this]), List.map_cons, ih, keyValue_cut hkv]
  · intro h
    subst h
    induction ls with
    | nil => exact .nil
    | cons l ls ih =>
      by_cases hl : l = []
      · subst hl
        simpa using KeyValues.skip ih
      · have : l.length ≠ 0 := fun h => hl (List.length_eq_zero_iff.1 h)
        rw [List.filter_cons_of_pos (by simp [this]), List.map_cons]
        exact .cons hl (cut_spec l) ih

theorem parseEntries_iff (c : UInt8) (t : Bytes) (ps : List Param) :
    parseEntries c t = ps ↔ ∃ ls, Pieces c t ls ∧ KeyValues ls ps := by
  unfold parseEntries
  constructor
  · intro h; exact ⟨_, pieces_split c t, (keyValues_iff _ _).2 h⟩
  · rintro ⟨ls, h1, h2⟩; rw [split_of_pieces h1]; exact (keyValues_iff _ _).1 h2

theorem lastQuestion_none {u : Bytes} (h : (63 : UInt8) ∉ u) : lastQuestion u = none := by
  induction u with
  | nil => rfl
  | cons b bs ih =>
    simp only [List.mem_cons, not_or] at h
    have hx : ¬ b = 63 := fun e => h.1 e.symm
    simp [lastQuestion, ih h.2, hx]

theorem lastQuestion_append {q : Bytes} (h : (63 : UInt8) ∉ q) (base : Bytes) :
    lastQuestion (base ++ 63 :: q) = some (base, q) := by
  induction base with
  | nil => simp [lastQuestion, lastQuestion_none h]
  | cons b bs ih => simp [lastQuestion, ih]

theorem lastQuestion_some {u base q : Bytes} (h : lastQuestion u = some (base, q)) :
    u = base ++ 63 :: q ∧ (63 : UInt8) ∉ q := by
  have hn : ∀ u : Bytes, lastQuestion u = none → (63 : UInt8) ∉ u := by
    intro u
    induction u with
    | nil => simp
    | cons b bs ih =>
      intro h
      unfold lastQuestion at h
      cases hb : lastQuestion bs with
      | some x => rw [hb] at h; simp at h
      | none =>
        rw [hb] at h
        simp only at h
        split at h
        · simp at h
        · rename_i hne
          simp only [List.mem_cons, not_or]
          exact ⟨fun e => hne e.symm, ih hb⟩
  induction u generalizing base with
  | nil => simp [lastQuestion] at h
  | cons b bs ih =>
    unfold lastQuestion at h
    cases hb : lastQuestion bs with
    | some x =>
      rw [hb] at h
      simp only at h
      cases h
      obtain ⟨h1, h2⟩ := ih hb
      exact ⟨by rw [h1]; simp, h2⟩
    | none =>
      rw [hb] at h
      simp only at h
      split at h
      · rename_i e
        cases h
        exact ⟨by simp [e], hn _ hb⟩
      · simp at h

/-- The code reads a user name as specified. -/
theorem parseUsername_iff (u base : Bytes) (ps : List Param) : parseUsername u = (base, ps) ↔ Query u base ps := by
  unfold parseUsername Query
  constructor
  · intro h
    cases hq : lastQuestion u with
    | none =>
      rw [hq] at h
      cases h
      refine .inl ⟨?_, rfl, rfl⟩
      intro hm
      obtain ⟨a, b, rfl⟩ := List.append_of_mem hm
      rcases Classical.em ((63 : UInt8) ∈ b) with hb | hb
      · -- the last one
        have hl : ∀ (b a : Bytes), lastQuestion (a ++ 63 :: b) ≠ none := by
          intro b a
          induction a with
          | nil => simp only [List.nil_append, lastQuestion]; cases lastQuestion b <;> simp
          | cons x xs ih =>
            simp only [List.cons_append, lastQuestion]
            cases h : lastQuestion (xs ++ 63 :: b) with
            | none => exact absurd h ih
            | some _ => simp
        exact hl _ _ hq
      · rw [lastQuestion_append hb] at hq; simp at hq
    | some x =>
      obtain ⟨a, q⟩ := x
      rw [hq] at h
      simp only [Prod.mk.injEq] at h
      obtain ⟨rfl, h2⟩ := h
      obtain ⟨h3, h4⟩ := lastQuestion_some hq
      obtain ⟨ls, h5, h6⟩ := (parseEntries_iff _ _ _).1 h2
      exact .inr ⟨q, ls, h3, h4, h5, h6⟩
  · rintro (⟨h1, rfl, rfl⟩ | ⟨q, ls, rfl, h2, h3, h4⟩)
    · rw [lastQuestion_none h1]
    · rw [lastQuestion_append h2]
      simp only
      rw [(parseEntries_iff _ _ _).2 ⟨ls, h3, h4⟩]

/-! ### Writing -/

/-- A parameter that can be written with the separators `cs` and read back. -/
def Writable (cs : List UInt8) (p : Param) : Prop := (61 : UInt8) ∉ p.key ∧ ∀ c ∈ cs, c ∉ p.key ∧ c ∉ p.value

theorem writeParam_keyValue {p : Param} (h : (61 : UInt8) ∉ p.key) : KeyValue (writeParam p) p := by
  refine ⟨h, ?_⟩
  unfold writeParam
  split
  · exact .inl rfl
  · exact .inr ⟨List.length_eq_zero_iff.1 (by omega), by simp⟩

theorem writeParam_no {c : UInt8} (hc : c ≠ 61) {p : Param} (h1 : c ∉ p.key) (h2 : c ∉ p.value) : c ∉ writeParam p := by
  unfold writeParam
  split <;> simp [h1, h2, hc]

theorem writeParams_pieces {c : UInt8} (hc : c ≠ 61) (ps : List Param) (hne : ps ≠ [])
    (h : ∀ p ∈ ps, c ∉ p.key ∧ c ∉ p.value) : Pieces c (writeParams c ps) (ps.map writeParam) := by
  refine ⟨by simp [hne], ?_, ?_⟩
  · intro l hl
    obtain ⟨p, hp, rfl⟩ := List.mem_map.1 hl
    exact writeParam_no hc (h p hp).1 (h p hp).2
  · clear h
    induction ps with
    | nil => exact absurd rfl hne
    | cons p ps ih =>
      cases ps with
      | nil => simp [writeParams]
      | cons r rs =>
        have := ih (by simp)
        simp only [List.map_cons] at this ⊢
        rw [List.intersperse_cons_cons]
        simp only [writeParams, List.flatten_cons, List.singleton_append]
        rw [this]

/-- What is read back: the parameters that are not completely empty. -/
def solid (ps : List Param) : List Param := ps.filter (fun p => p.key ≠ [] ∨ p.value ≠ [])

theorem writeParams_read (ps : List Param) (h : ∀ p ∈ ps, (61 : UInt8) ∉ p.key) :
    KeyValues (ps.map writeParam) (solid ps) := by
  induction ps with
  | nil => exact .nil
  | cons p ps ih =>
    have := ih (fun x hx => h x (by simp [hx]))
    have hp := writeParam_keyValue (h p (by simp))
    unfold solid at this ⊢
    by_cases he : p.key ≠ [] ∨ p.value ≠ []
    · rw [List.filter_cons_of_pos (by simpa using he), List.map_cons]
      refine .cons ?_ hp this
      unfold writeParam
      split
      · simp
      · rename_i hv
        have hv : p.value = [] := List.length_eq_zero_iff.1 (by omega)
        rcases he with he | he
        · simpa using he
        · exact absurd hv he
    · rw [List.filter_cons_of_neg (by simpa using he), List.map_cons]
      have he : p.key = [] ∧ p.value = [] := by
        constructor
        · exact Classical.byContradiction fun h => he (.inl h)
        · exact Classical.byContradiction fun h => he (.inr h)
      have : writeParam p = [] := by simp [writeParam, he]
      rw [this]
      exact .skip ‹_›

theorem writeParams_no {c d : UInt8} (hc : c ≠ 61) (hcd : c ≠ d) (ps : List Param) (h : ∀ p ∈ ps, c ∉ p.key ∧ c ∉ p.value) :
    c ∉ writeParams d ps := by
  induction ps with
  | nil => simp [writeParams]
  | cons p ps ih =>
    have h1 := writeParam_no hc (h p (by simp)).1 (h p (by simp)).2
    have h2 := ih (fun x hx => h x (by simp [hx]))
    cases ps with
    | nil => simpa [writeParams] using h1
    | cons r rs => simp [writeParams, h1, hcd] at h2 ⊢; exact h2

theorem usernameQuery_reads (base : Bytes) (ps : List Param) (hne : ps ≠ []) (h : ∀ p ∈ ps, Writable [38, 63] p) :
    Query (usernameQuery base ps) base (solid ps) := by
  refine .inr ⟨writeParams 38 ps, ps.map writeParam, ?_, ?_, ?_, ?_⟩
  · have : ps.length ≠ 0 := fun h => hne (List.length_eq_zero_iff.1 h)
    simp [usernameQuery, buildParams, this]
  · exact writeParams_no (by decide) (by decide) ps fun p hp => (h p hp).2 63 (by simp)
  · exact writeParams_pieces (by decide) ps hne fun p hp => (h p hp).2 38 (by simp)
  · exact writeParams_read ps fun p hp => (h p hp).1

theorem metadataValue_reads (es : List Param) (hne : es ≠ []) (h : ∀ p ∈ es, Writable [59] p) :
    Entries (metadataValue es) (solid es) := by
  refine ⟨writeParams 59 es, es.map writeParam, ?_, ?_, ?_⟩
  · have : es.length ≠ 0 := fun h => hne (List.length_eq_zero_iff.1 h)
    simp [metadataValue, buildParams, this]
  · exact writeParams_pieces (by decide) es hne fun p hp => (h p hp).2 59 (by simp)
  · exact writeParams_read es fun p hp => (h p hp).1

/-- The size computed is the length of what is written. -/
theorem buildSize_eq (pre post : Bytes) (c : UInt8) (ps : List Param) :
    buildSize pre.length post.length ps = (buildParams pre post c ps).length := by
  unfold buildSize buildParams
  split
  · rfl
  · rename_i hne
    have hfold : ∀ (ps : List Param) (n : Nat),
        ps.foldl (fun n p => n + p.key.length + if p.value.length > 0 then 1 + p.value.length else 0) n =
          n + (ps.map (fun p => (writeParam p).length)).sum := by
      intro ps
      induction ps with
      | nil => simp
      | cons p ps ih =>
        intro n
        simp only [List.foldl_cons, List.map_cons, List.sum_cons, ih]
        unfold writeParam
        split <;> simp <;> omega
    have hw : ∀ ps : List Param, ps ≠ [] →
        (writeParams c ps).length + 1 = ps.length + (ps.map (fun p => (writeParam p).length)).sum := by
      intro ps
      induction ps with
      | nil => intro h; exact absurd rfl h
      | cons p ps ih =>
        intro _
        cases ps with
        | nil => simp [writeParams]; omega
        | cons r rs =>
          have := ih (by simp)
          simp only [writeParams, List.length_append, List.length_cons, List.map_cons, List.sum_cons] at this ⊢
          omega
    have := hw ps (fun h => by simp [h] at hne)
    rw [hfold]
    simp only [List.length_append]
    omega

/-! ### Merging -/

/-- Metrics without the separators that would make their own text ambiguous. -/
structure CleanMetrics (platform : Bytes) (m : Metrics) : Prop where
  platform : ∀ c ∈ ([38, 63] : List UInt8), c ∉ platform
  library : ∀ c ∈ ([38, 63] : List UInt8), c ∉ m.libraryName
  entries : ∀ e ∈ m.entries, Writable [59, 38, 63] e

/-- The parameter `k=v`, unless `ps` has one with that key. -/
def missing (ps : List Param) (k v : Bytes) : List Param := if ∃ p ∈ ps, p.key = k then [] else [⟨k, v⟩]

/-- Parameters other than `Metadata`. -/
def plain (ps : List Param) : List Param := ps.filter (fun p => p.key ≠ utf "Metadata")

theorem metadata_literal : utf "Metadata" = metadataKey := by decide +kernel
theorem sdk_literal : utf "SDK" = sdkKey := by decide +kernel
theorem platform_literal : utf "Platform" = platformKey := by decide +kernel
theorem library_literal : utf "IoTDeviceSDK/C" = defaultLibrary := by decide +kernel

theorem sdk_not_metadata : decide (sdkKey ≠ metadataKey) = true := by decide

theorem findParam_none {ps : List Param} {k : Bytes} : findParam ps k = none ↔ ¬ ∃ p ∈ ps, p.key = k := by
  unfold findParam
  rw [List.findIdx?_eq_none_iff]
  simp

theorem addIfAbsent_eq (ps : List Param) (k v : Bytes) : addIfAbsent ps k v = ps ++ missing ps k v := by
  unfold addIfAbsent missing
  cases h : findParam ps k with
  | none => rw [if_neg (findParam_none.1 h)]
  | some i =>
    rw [if_pos]
    · simp
    · apply Classical.byContradiction
      intro hn
      rw [findParam_none.2 hn] at h; simp at h

theorem keyValues_writable {c : UInt8} {ls : List Bytes} {ps : List Param} (h : KeyValues ls ps)
    (hl : ∀ l ∈ ls, c ∉ l) : ∀ p ∈ ps, (61 : UInt8) ∉ p.key ∧ c ∉ p.key ∧ c ∉ p.value := by
  induction h with
  | nil => simp
  | skip _ ih => exact ih (fun l hm => hl l (by simp [hm]))
  | @cons l p ls ps hne hkv _ ih =>
    intro q hq
    rcases List.mem_cons.1 hq with rfl | hq
    · have hc := hl l (by simp)
      obtain ⟨h1, h2⟩ := hkv
      refine ⟨h1, ?_⟩
      rcases h2 with rfl | ⟨h2, rfl⟩
      · simp only [List.mem_append, List.mem_cons, not_or] at hc
        exact ⟨hc.1, hc.2.2⟩
      · exact ⟨hc, by simp [h2]⟩
    · exact ih (fun l hm => hl l (by simp [hm])) q hq

theorem pieces_no {c d : UInt8} {t : Bytes} {ls : List Bytes} (h : Pieces c t ls) (hd : d ∉ t) : ∀ l ∈ ls, d ∉ l := by
  intro l hl hm
  obtain ⟨_, _, rfl⟩ := h
  apply hd
  clear hd
  induction ls with
  | nil => simp at hl
  | cons x xs ih =>
    cases xs with
    | nil => simp at hl; subst hl; simpa using hm
    | cons y ys =>
      rw [List.intersperse_cons_cons]
      rcases List.mem_cons.1 hl with rfl | hl
      · simp [hm]
      · have := ih hl (by simp) (fun z hz => ‹∀ l ∈ x :: y :: ys, c ∉ l› z (by simp [hz]))
        simp only [List.flatten_cons, List.mem_append]
        exact .inr (.inr this)

/-- Parameters read from a user name can be written back. -/
theorem query_writable {u base : Bytes} {ps : List Param} (h : Query u base ps) : ∀ p ∈ ps, Writable [38, 63] p := by
  rcases h with ⟨_, _, rfl⟩ | ⟨q, ls, _, h2, h3, h4⟩
  · simp
  · intro p hp
    have a := keyValues_writable h4 h3.2.1 p hp
    have b := keyValues_writable h4 (pieces_no h3 h2) p hp
    refine ⟨a.1, ?_⟩
    intro c hc
    simp only [List.mem_cons, List.not_mem_nil, or_false] at hc
    rcases hc with rfl | rfl
    · exact a.2
    · exact b.2

theorem mergeEntries_spec (news : List Param) : ∀ es : List Param,
    (∃ more, mergeEntries es news = es ++ more ∧ ∀ p ∈ more, p ∈ news) ∧
    ∀ k, first (mergeEntries es news) k = (first es k).or (first news k) := by
  induction news with
  | nil => intro es; refine ⟨⟨[], by simp [mergeEntries]⟩, ?_⟩; intro k; simp [mergeEntries, first]
  | cons e news ih =>
    intro es
    have hstep : mergeEntries es (e :: news) = mergeEntries (es ++ missing es e.key e.value) news := by
      show List.foldl _ _ _ = List.foldl _ _ _
      rw [List.foldl_cons, addIfAbsent_eq]
    obtain ⟨⟨more, h1, h2⟩, h3⟩ := ih (es ++ missing es e.key e.value)
    refine ⟨⟨missing es e.key e.value ++ more, by rw [hstep, h1]; simp, ?_⟩, ?_⟩
    · intro p hp
      rcases List.mem_append.1 hp with hp | hp
      · unfold missing at hp
        split at hp
        · simp at hp
        · rw [List.mem_singleton.1 hp]; simp
      · exact List.mem_cons_of_mem _ (h2 p hp)
    · intro k
      rw [hstep, h3]
      unfold first missing
      by_cases hex : ∃ p ∈ es, p.key = e.key
      · rw [if_pos hex, List.append_nil]
        by_cases hk : e.key = k
        · obtain ⟨p, hp, hpk⟩ := hex
          have : (es.find? (fun p => p.key = k)).isSome := by
            rw [List.find?_isSome]; exact ⟨p, hp, by simp [hpk, hk]⟩
          obtain ⟨x, hx⟩ := Option.isSome_iff_exists.1 this
          simp [hx]
        · rw [List.find?_cons_of_neg (by simpa using hk)]
      · rw [if_neg hex, List.find?_append]
        by_cases hk : e.key = k
        · have : es.find? (fun p => p.key = k) = none := by
            rw [List.find?_eq_none]
            intro p hp hpk
            exact hex ⟨p, hp, by rw [hk]; simpa using hpk⟩
          simp [this, hk]
        · simp [hk]

theorem first_solid (ps : List Param) (k : Bytes) (hk : k ≠ []) : first (solid ps) k = first ps k := by
  unfold first solid
  congr 1
  rw [List.find?_filter]
  congr 1
  funext p
  by_cases h : p.key = k
  · simp [h, hk]
  · simp [h]

/-- What becomes of the metadata. -/
structure MetadataMerged (ps ps' news : List Param) : Prop where
  /-- no entries to add, or the user's value is not a list of entries: it stays -/
  kept : news = [] ∨ (∃ v, first ps (utf "Metadata") = some v ∧ v ≠ [] ∧ ∀ es, ¬ Entries v es) →
    first ps' (utf "Metadata") = first ps (utf "Metadata")
  /-- otherwise the user's entries win over the new ones -/
  merged : news ≠ [] → ∀ es,
    ((first ps (utf "Metadata") = none ∨ first ps (utf "Metadata") = some []) ∧ es = [] ∨
      ∃ v, first ps (utf "Metadata") = some v ∧ Entries v es) →
    ∃ v' es', first ps' (utf "Metadata") = some v' ∧ Entries v' es' ∧
      ∀ k, k ≠ [] → first es' k = (first es k).or (first news k)

theorem metadataContent_some {v c : Bytes} : metadataContent v = some c ↔ v = 40 :: (c ++ [41]) := by
  unfold metadataContent
  constructor
  · intro h
    split at h
    · rename_i hv
      obtain ⟨h1, h2, h3⟩ := hv
      cases v with
      | nil => simp at h1
      | cons a v =>
        simp only [List.head?_cons, Option.some.injEq] at h2
        subst h2
        simp only [List.tail_cons, Option.some.injEq] at h
        subst h
        have hne : v ≠ [] := by intro e; subst e; simp at h1
        rw [List.getLast?_cons_of_ne_nil hne] at h3
        rw [List.getLast?_eq_some_getLast hne, Option.some.injEq] at h3
        rw [← h3, List.dropLast_concat_getLast]
    · simp at h
  · rintro rfl
    rw [if_pos]
    · simp
    · refine ⟨by simp, by simp, ?_⟩
      rw [List.getLast?_cons_of_ne_nil (by simp)]
      simp

theorem entries_iff {v : Bytes} {es : List Param} :
    Entries v es ↔ ∃ c, metadataContent v = some c ∧ parseEntries 59 c = es := by
  unfold Entries
  simp only [metadataContent_some, parseEntries_iff]
  constructor
  · rintro ⟨c, ls, h1, h2, h3⟩; exact ⟨c, h1, ls, h2, h3⟩
  · rintro ⟨c, h1, ls, h2, h3⟩; exact ⟨c, ls, h1, h2, h3⟩

theorem findParam_some {ps : List Param} {k : Bytes} {i : Nat} (h : findParam ps k = some i) :
    ∃ a p b, ps = a ++ p :: b ∧ a.length = i ∧ p.key = k ∧ ∀ q ∈ a, q.key ≠ k := by
  unfold findParam at h
  rw [List.findIdx?_eq_some_iff_getElem] at h
  obtain ⟨hi, h1, h2⟩ := h
  refine ⟨ps.take i, ps[i], ps.drop (i + 1), ?_, by simp; omega, by simpa using h1, ?_⟩
  · rw [List.getElem_cons_drop, List.take_append_drop]
  · intro q hq
    obtain ⟨j, hj, rfl⟩ := List.mem_take_iff_getElem.1 hq
    have := h2 j (by omega)
    simpa using this

theorem first_at {a b : List Param} {p : Param} {k : Bytes} (hp : p.key = k) (ha : ∀ q ∈ a, q.key ≠ k) :
    first (a ++ p :: b) k = some p.value := by
  unfold first
  have : a.find? (fun q => q.key = k) = none := by
    rw [List.find?_eq_none]; intro q hq; simpa using ha q hq
  rw [List.find?_append, this]
  simp [hp]

theorem first_none {ps : List Param} {k : Bytes} (h : findParam ps k = none) : first ps k = none := by
  unfold first
  have := findParam_none.1 h
  rw [List.find?_eq_none.2]
  · rfl
  · intro p hp hk; exact this ⟨p, hp, by simpa using hk⟩

/-- `addMetadata` changes only the first `Metadata` parameter. -/
theorem addMetadata_spec (ps news : List Param) (hnews : ∀ e ∈ news, Writable [59, 38, 63] e)
    (hps : ∀ p ∈ ps, Writable [38, 63] p) :
    plain (addMetadata ps news) = plain ps ∧ (∀ p ∈ addMetadata ps news, Writable [38, 63] p) ∧
    MetadataMerged ps (addMetadata ps news) news := by
  have hcomplete : ∀ es, (∀ e ∈ es, Writable [59, 38, 63] e) → news ≠ [] →
      Writable [38, 63] ⟨metadataKey, metadataValue (mergeEntries es news)⟩ ∧
      ∃ es', Entries (metadataValue (mergeEntries es news)) es' ∧
        ∀ k, k ≠ [] → first es' k = (first es k).or (first news k) := by
    intro es hes hne
    obtain ⟨⟨more, h1, h2⟩, h3⟩ := mergeEntries_spec news es
    have hall : ∀ e ∈ mergeEntries es news, Writable [59, 38, 63] e := by
      intro e he
      rw [h1] at he
      rcases List.mem_append.1 he with h | h
      · exact hes e h
      · exact hnews e (h2 e h)
    have hnil : mergeEntries es news ≠ [] := by
      intro he
      cases news with
      | nil => exact hne rfl
      | cons n ns =>
        have := h3 n.key
        rw [he] at this
        simp [first] at this
    refine ⟨⟨by simp only; decide, ?_⟩, solid (mergeEntries es news), ?_, ?_⟩
    · intro c hc
      have hc' : c = 38 ∨ c = 63 := by simpa using hc
      refine ⟨by simp only; rcases hc' with rfl | rfl <;> decide, ?_⟩
      have hw := writeParams_no (c := c) (d := 59) (by rcases hc' with rfl | rfl <;> decide)
        (by rcases hc' with rfl | rfl <;> decide) (mergeEntries es news)
        (fun p hp => (hall p hp).2 c (by rcases hc' with rfl | rfl <;> simp))
      have hl : (mergeEntries es news).length ≠ 0 := fun h => hnil (List.length_eq_zero_iff.1 h)
      have e : metadataValue (mergeEntries es news) = [40] ++ writeParams 59 (mergeEntries es news) ++ [41] := by
        simp [metadataValue, buildParams, hl]
      rw [e]
      simp only [List.mem_append, List.mem_singleton, not_or]
      exact ⟨⟨by rcases hc' with rfl | rfl <;> decide, hw⟩, by rcases hc' with rfl | rfl <;> decide⟩
    · exact metadataValue_reads _ hnil (fun p hp => ⟨(hall p hp).1, fun c hc => (hall p hp).2 c (by
        simp only [List.mem_singleton] at hc; simp [hc])⟩)
    · intro k hk; rw [first_solid _ _ hk, h3]
  have hplain : ∀ (a b : List Param) (p : Param) (v : Bytes), p.key = metadataKey →
      plain (a ++ ⟨metadataKey, v⟩ :: b) = plain (a ++ p :: b) := by
    intro a b p v hp
    unfold plain
    rw [metadata_literal]
    simp [List.filter_append, hp]
  have hset : ∀ (a b : List Param) (p x : Param) (i : Nat), a.length = i → (a ++ p :: b).set i x = a ++ x :: b := by
    intro a b p x i hi
    subst hi
    simp
  unfold addMetadata
  by_cases hn : news = []
  · rw [if_pos (by simp [hn])]
    exact ⟨rfl, hps, ⟨fun _ => rfl, fun h => absurd hn h⟩⟩
  · rw [if_neg (fun h => hn (List.length_eq_zero_iff.1 h))]
    cases hf : findParam ps metadataKey with
    | none =>
      obtain ⟨c1, es', c2, c3⟩ := hcomplete [] (by simp) hn
      have hfn := first_none hf
      have hfirst : ∀ v, first (ps ++ [⟨metadataKey, v⟩]) metadataKey = some v := by
        intro v
        refine first_at (p := ⟨metadataKey, v⟩) rfl ?_
        intro q hq hk; exact findParam_none.1 hf ⟨q, hq, hk⟩
      refine ⟨?_, ?_, ?_⟩
      · unfold plain; rw [metadata_literal]; simp [List.filter_append]
      · intro p hp
        rcases List.mem_append.1 hp with h | h
        · exact hps p h
        · rw [List.mem_singleton.1 h]; exact c1
      · constructor
        · rw [metadata_literal, hfn]
          rintro (h | ⟨v, h, _⟩)
          · exact absurd h hn
          · simp at h
        · intro _ es hes
          rw [metadata_literal] at hes ⊢
          rw [hfn] at hes
          rcases hes with ⟨_, rfl⟩ | ⟨v, h, _⟩
          · exact ⟨_, es', hfirst _, c2, c3⟩
          · simp at h
    | some i =>
      obtain ⟨a, p, b, rfl, hi, hk, ha⟩ := findParam_some hf
      have hv : ((a ++ p :: b)[i]?.map Param.value).getD [] = p.value := by subst hi; simp
      simp only
      rw [hv, hset _ _ _ _ _ hi]
      have hfst := first_at (b := b) hk ha
      have hfst' : ∀ v, first (a ++ ⟨metadataKey, v⟩ :: b) metadataKey = some v := fun v => first_at rfl ha
      have hmem : ∀ x : Param, Writable [38, 63] x → ∀ q ∈ a ++ x :: b, Writable [38, 63] q := by
        intro x hx q hq
        simp only [List.mem_append, List.mem_cons] at hq
        rcases hq with h | h | h
        · exact hps q (by simp [h])
        · rw [h]; exact hx
        · exact hps q (by simp [h])
      by_cases hz : p.value.length = 0
      · have hz' : p.value = [] := List.length_eq_zero_iff.1 hz
        rw [if_pos hz]
        obtain ⟨c1, es', c2, c3⟩ := hcomplete [] (by simp) hn
        refine ⟨hplain _ _ _ _ hk, hmem _ c1, ?_⟩
        constructor
        · rw [metadata_literal, hfst, hz']
          rintro (h | ⟨v, h, h2, _⟩)
          · exact absurd h hn
          · simp only [Option.some.injEq] at h; exact absurd h.symm h2
        · intro _ es hes
          rw [metadata_literal] at hes ⊢
          rw [hfst, hz'] at hes
          rcases hes with ⟨_, rfl⟩ | ⟨v, h, he⟩
          · exact ⟨_, es', hfst' _, c2, c3⟩
          · simp only [Option.some.injEq] at h
            subst h
            obtain ⟨c, ls, h, _⟩ := he
            simp at h
      · rw [if_neg hz]
        cases hc : metadataContent p.value with
        | none =>
          have hno : ∀ es, ¬ Entries p.value es := by
            intro es he
            obtain ⟨c, h, _⟩ := entries_iff.1 he
            rw [hc] at h; simp at h
          refine ⟨rfl, hps, ⟨fun _ => rfl, ?_⟩⟩
          intro _ es hes
          rw [metadata_literal, hfst] at hes
          rcases hes with ⟨h | h, _⟩ | ⟨v, h, he⟩
          · simp at h
          · simp only [Option.some.injEq] at h; simp [h] at hz
          · simp only [Option.some.injEq] at h; subst h; exact absurd he (hno es)
        | some c =>
          have hval := metadataContent_some.1 hc
          obtain ⟨ls, hl1, hl2⟩ := (parseEntries_iff 59 c _).1 rfl
          have hwes : ∀ e ∈ parseEntries 59 c, Writable [59, 38, 63] e := by
            intro e he
            have hpw := hps p (by simp)
            have hno : ∀ d, d ∈ ([38, 63] : List UInt8) → d ∉ c := by
              intro d hd hm
              apply (hpw.2 d hd).2
              rw [hval]; simp [hm]
            have x1 := keyValues_writable hl2 hl1.2.1 e he
            have x2 := keyValues_writable hl2 (pieces_no hl1 (hno 38 (by simp))) e he
            have x3 := keyValues_writable hl2 (pieces_no hl1 (hno 63 (by simp))) e he
            refine ⟨x1.1, ?_⟩
            intro d hd
            simp only [List.mem_cons, List.not_mem_nil, or_false] at hd
            rcases hd with rfl | rfl | rfl
            · exact x1.2
            · exact x2.2
            · exact x3.2
          obtain ⟨c1, es', c2, c3⟩ := hcomplete _ hwes hn
          simp only
          rw [hset _ _ _ _ _ hi]
          refine ⟨hplain _ _ _ _ hk, hmem _ c1, ?_⟩
          constructor
          · rw [metadata_literal, hfst]
            rintro (h | ⟨v, h, _, h3⟩)
            · exact absurd h hn
            · simp only [Option.some.injEq] at h
              subst h
              exact absurd (entries_iff.2 ⟨c, hc, rfl⟩) (h3 _)
          · intro _ es hes
            rw [metadata_literal] at hes ⊢
            rw [hfst] at hes
            have : es = parseEntries 59 c := by
              rcases hes with ⟨h | h, _⟩ | ⟨v, h, he⟩
              · simp at h
              · simp only [Option.some.injEq] at h; simp [h] at hz
              · simp only [Option.some.injEq] at h
                subst h
                obtain ⟨c', h1, h2⟩ := entries_iff.1 he
                rw [hc, Option.some.injEq] at h1
                rw [h1]; exact h2.symm
            subst this
            exact ⟨_, es', hfst' _, c2, c3⟩

/-- The library name reported. -/
def library (m : Metrics) : Bytes := if m.libraryName = [] then utf "IoTDeviceSDK/C" else m.libraryName

/-- The user name that is sent: the user's base; the user's parameters in order, then SDK and Platform if the
user gave none; the metadata merged; at most 65535 bytes. -/
theorem C57_kept (platform u base out : Bytes) (ps : List Param) (hq : Query u base ps) (m : Metrics)
    (hm : CleanMetrics platform m) (output : Bool) (h : append platform u (some m) output = .ok out) :
    out.length ≤ 65535 ∧ ∃ ps', Query out base ps' ∧
      plain ps' = plain (solid ps) ++ missing ps (utf "SDK") (library m) ++ missing ps (utf "Platform") platform ∧
      MetadataMerged ps ps' m.entries := by
  rw [sdk_literal, platform_literal]
  unfold append at h
  simp only at h
  split at h
  · simp at h
  · rw [(parseUsername_iff _ _ _).2 hq] at h
    simp only at h
    split at h
    · split at h <;> simp at h
    · rename_i hlen
      simp only [Result.ok.injEq] at h
      have hlib : (if m.libraryName.length > 0 then m.libraryName else defaultLibrary) = library m := by
        unfold library
        rw [library_literal]
        cases m.libraryName <;> simp
      have hp1 : newParams platform m ps =
          addMetadata (ps ++ missing ps sdkKey (library m) ++ missing ps platformKey platform) m.entries := by
        unfold newParams
        rw [hlib, addIfAbsent_eq, addIfAbsent_eq]
        have : missing (ps ++ missing ps sdkKey (library m)) platformKey platform = missing ps platformKey platform := by
          unfold missing
          by_cases hx : ∃ p ∈ ps, p.key = platformKey
          · rw [if_pos hx, if_pos]
            obtain ⟨p, hp, hk⟩ := hx
            exact ⟨p, List.mem_append_left _ hp, hk⟩
          · rw [if_neg hx, if_neg]
            rintro ⟨p, hp, hk⟩
            rcases List.mem_append.1 hp with hp | hp
            · exact hx ⟨p, hp, hk⟩
            · split at hp
              · simp at hp
              · rw [List.mem_singleton.1 hp] at hk
                exact absurd (show sdkKey = platformKey from hk) (by decide)
        rw [this]
      have hw : ∀ p ∈ ps ++ missing ps sdkKey (library m) ++ missing ps platformKey platform, Writable [38, 63] p := by
        have hmiss : ∀ (k v : Bytes), Writable [38, 63] ⟨k, v⟩ → ∀ p ∈ missing ps k v, Writable [38, 63] p := by
          intro k v hkv p hp
          unfold missing at hp
          split at hp
          · simp at hp
          · rw [List.mem_singleton.1 hp]; exact hkv
        intro p hp
        simp only [List.mem_append] at hp
        rcases hp with (hp | hp) | hp
        · exact query_writable hq p hp
        · refine hmiss _ _ ⟨by simp only; decide, ?_⟩ p hp
          intro c hc
          have hc' : c = 38 ∨ c = 63 := by simpa using hc
          refine ⟨by simp only; rcases hc' with rfl | rfl <;> decide, ?_⟩
          unfold library
          rw [library_literal]
          split
          · rcases hc' with rfl | rfl <;> decide
          · exact hm.library c hc
        · refine hmiss _ _ ⟨by simp only; decide, ?_⟩ p hp
          intro c hc
          have hc' : c = 38 ∨ c = 63 := by simpa using hc
          exact ⟨by simp only; rcases hc' with rfl | rfl <;> decide, hm.platform c hc⟩
      obtain ⟨a1, a2, a3⟩ := addMetadata_spec _ m.entries hm.entries hw
      rw [← hp1] at a1 a2 a3
      have hne : newParams platform m ps ≠ [] := by
        have hs : ∃ p ∈ plain (newParams platform m ps), True := by
          rw [a1]
          unfold plain
          rw [metadata_literal]
          by_cases hx : ∃ p ∈ ps, p.key = sdkKey
          · obtain ⟨p, hp, hk⟩ := hx
            exact ⟨p, by simp only [List.mem_filter, List.mem_append]; exact ⟨.inl (.inl hp), by rw [hk]; decide⟩, trivial⟩
          · refine ⟨⟨sdkKey, library m⟩, ?_, trivial⟩
            simp only [List.mem_filter, List.mem_append]
            refine ⟨.inl (.inr ?_), by exact sdk_not_metadata⟩
            unfold missing; rw [if_neg hx]; simp
        intro he
        rw [he] at hs
        obtain ⟨p, hp, _⟩ := hs
        simp [plain] at hp
      have hsize : (usernameQuery base (newParams platform m ps)).length ≤ 65535 := by
        have := buildSize_eq [63] [] 38 (newParams platform m ps)
        simp only [List.length_singleton, List.length_nil] at this
        unfold usernameQuery
        rw [List.length_append, ← this]
        omega
      subst h
      refine ⟨hsize, solid (newParams platform m ps), usernameQuery_reads base _ hne a2, ?_, ?_⟩
      · have hcomm : ∀ l : List Param, plain (solid l) = solid (plain l) := by
          intro l
          unfold plain solid
          rw [List.filter_filter, List.filter_filter]
          congr 1; funext p; exact Bool.and_comm _ _
        rw [hcomm, a1]
        have happ : ∀ l r : List Param, solid (plain (l ++ r)) = solid (plain l) ++ solid (plain r) := by
          intro l r; unfold plain solid; simp
        have hmiss : ∀ (k v : Bytes), k ≠ [] → k ≠ metadataKey → solid (plain (missing ps k v)) = missing ps k v := by
          intro k v h1 h2
          unfold missing plain solid
          rw [metadata_literal]
          split
          · rfl
          · simp [h1, h2]
        rw [happ, happ, hmiss _ _ (by decide) (by decide), hmiss _ _ (by decide) (by decide), hcomm]
      · have hM : utf "Metadata" ≠ [] := by rw [metadata_literal]; decide
        have hsame : first (ps ++ missing ps sdkKey (library m) ++ missing ps platformKey platform) (utf "Metadata")
            = first ps (utf "Metadata") := by
          have hmiss : ∀ k v : Bytes, k ≠ metadataKey →
              (missing ps k v).find? (fun p => p.key = metadataKey) = none := by
            intro k v hk
            unfold missing
            split
            · rfl
            · simp [hk]
          rw [metadata_literal]
          unfold first
          rw [List.find?_append, List.find?_append, hmiss _ _ (by decide), hmiss _ _ (by decide)]
          simp
        obtain ⟨k1, k2⟩ := a3
        rw [hsame] at k1 k2
        constructor
        · rw [first_solid _ _ hM]; exact k1
        · intro h1 es h2
          obtain ⟨v', es', r1, r2, r3⟩ := k2 h1 es h2
          exact ⟨v', es', by rw [first_solid _ _ hM]; exact r1, r2, r3⟩

/-- The length the new user name would have. -/
def newLength (platform u : Bytes) (m : Metrics) : Nat :=
  (usernameQuery (parseUsername u).1 (newParams platform m (parseUsername u).2)).length

theorem append_cases (platform u : Bytes) (m : Metrics) (output : Bool) :
    append platform u (some m) output =
      if validMetrics m = false then .error
      else if newLength platform u m > 65535 then if output then .error else .crash
      else .ok (usernameQuery (parseUsername u).1 (newParams platform m (parseUsername u).2)) := by
  have := buildSize_eq [63] [] 38 (newParams platform m (parseUsername u).2)
  simp only [List.length_singleton, List.length_nil] at this
  unfold append newLength usernameQuery
  rw [List.length_append, ← this]
  cases hv : validMetrics m <;> simp [hv]

/-- When building a CONNECT crashes: exactly when the options are accepted, metrics are configured and the user
name with metrics would be longer than 65535 bytes. In every other case the outcome is as specified: refused
options are refused; otherwise the CONNECT carries the user name of `C57_kept`. -/
theorem C57_connect_partial (platform : Bytes) (m : Option Metrics) (v : ConnectView) :
    (connect platform m v = .crash ↔
      validateConnect v = true ∧ ∃ m', m = some m' ∧ validMetrics m' = true ∧
        newLength platform (v.username.getD []) m' > 65535) ∧
    (connect platform none v = match newConnect v with | some w => .ok w | none => .refused) ∧
    ∀ w, connect platform m v = .ok w → validateConnect v = true ∧
      (∀ m', m = some m' → ∃ u, append platform (v.username.getD []) (some m') true = .ok u ∧
        w = { v with username := some u }) := by
  refine ⟨?_, ?_, ?_⟩
  · unfold connect
    cases hv : validateConnect v
    · simp
    · simp only [Bool.not_true, Bool.false_eq_true, if_false]
      cases m with
      | none =>
        simp only [append]
        split <;> simp
      | some m =>
        simp only [Option.isSome_some, Bool.or_true, if_true, append_cases]
        cases hm : validMetrics m
        · simp [hm]
        · by_cases hl : newLength platform (v.username.getD []) m > 65535
          · simp [hl, hm]
          · simp [hl]
  · unfold connect newConnect
    cases hv : validateConnect v
    · simp
    · cases hu : v.username with
      | none => simp
      | some s =>
        cases s with
        | nil => simp
        | cons b bs => simp [append]
  · intro w h
    unfold connect at h
    cases hv : validateConnect v
    · rw [hv] at h; simp at h
    · refine ⟨rfl, ?_⟩
      rintro m' rfl
      rw [hv] at h
      simp only [Bool.not_true, Bool.false_eq_true, if_false, Option.isSome_some, Bool.or_true, if_true] at h
      split at h
      · simp at h
      · cases ha : append platform (v.username.getD []) (some m') true with
        | ok u => rw [ha] at h; simp only [Connect.ok.injEq] at h; exact ⟨u, rfl, h.symm⟩
        | error => rw [ha] at h; simp at h
        | crash => rw [ha] at h; simp at h

/-- A user name of 65535 letters and plain metrics: building the CONNECT dereferences NULL. -/
theorem C57_violated : ∃ (v : ConnectView) (m : Metrics) (platform : Bytes),
    ConnectRules v ∧ CleanMetrics platform m ∧ validMetrics m = true ∧ connect platform (some m) v = .crash := by
  have htext : ∀ n, Text (List.replicate n (97 : UInt8)) := by
    intro n
    refine ⟨List.replicate n 97, ?_, ?_⟩
    · intro c hc
      rw [List.eq_of_mem_replicate hc]
      unfold Scalar Disallowed
      omega
    · induction n with
      | zero => rfl
      | succ n ih => rw [List.replicate_succ, List.replicate_succ, List.flatMap_cons, ← ih]; rfl
  have key : ∀ n, n = 65535 → ∃ (v : ConnectView) (m : Metrics) (platform : Bytes),
      ConnectRules v ∧ CleanMetrics platform m ∧ validMetrics m = true ∧ connect platform (some m) v = .crash := by
    intro n hn
    have hc : Text [99] := (validUtf8Text_iff _).1 (by decide +kernel)
    have hrules : ConnectRules { clientId := [99], username := some (List.replicate n 97) } := by
      refine ⟨?_, ?_, ?_, by simp, by simp, ?_, ?_, ?_, ?_, ?_, by simp⟩
      · exact ⟨by simp, hc⟩
      · intro s hs; cases hs; exact ⟨by simp; omega, htext n⟩
      all_goals intro x hx; simp at hx
    refine ⟨{ clientId := [99], username := some (List.replicate n 97) }, {}, utf "Linux", hrules, ?_, ?_, ?_⟩
    · refine ⟨by decide +kernel, by simp, by simp⟩
    · decide +kernel
    · refine (C57_connect_partial _ _ _).1.2 ⟨?_, {}, rfl, by decide +kernel, ?_⟩
      · refine (validateConnect_iff _).2 ⟨hrules, ?_, ?_, by simp⟩ <;> intro x hx <;> simp at hx
      · have hq : Query (List.replicate n (97 : UInt8)) (List.replicate n 97) [] :=
          .inl ⟨by intro h; exact absurd (List.eq_of_mem_replicate h) (by decide), rfl, rfl⟩
        have hp := (parseUsername_iff _ _ _).2 hq
        show newLength _ (List.replicate n 97) _ > _
        unfold newLength
        rw [hp]
        simp only
        have : newParams (utf "Linux") {} [] = [⟨sdkKey, defaultLibrary⟩, ⟨platformKey, utf "Linux"⟩] := by decide +kernel
        rw [this]
        unfold usernameQuery
        rw [List.length_append, List.length_replicate]
        have : (buildParams [63] [] 38 [⟨sdkKey, defaultLibrary⟩, ⟨platformKey, utf "Linux"⟩]).length = 34 := by
          decide +kernel
        rw [this]
        omega
  exact key 65535 rfl

/-! ### Cases -/

example : append (utf "Linux") (utf "me?Metadata=(a=1)&x=y&SDK=mine") (some { libraryName := utf "L/1", entries := [⟨utf "a", utf "2"⟩, ⟨utf "b", utf "3"⟩] }) true
    = .ok (utf "me?Metadata=(a=1;b=3)&x=y&SDK=mine&Platform=Linux") := by decide +kernel

example : append (utf "Linux") (utf "a?b?=&c=&&d") (some {}) true
    = .ok (utf "a?b?&c&d&SDK=IoTDeviceSDK/C&Platform=Linux") := by decide +kernel

example : CleanMetrics (utf "Linux") { libraryName := utf "L/1", entries := [⟨utf "a", utf "2"⟩, ⟨utf "b", utf "3"⟩] } := by
  refine ⟨by decide +kernel, by decide +kernel, ?_⟩
  unfold Writable
  decide +kernel

end Mqtt.Props
