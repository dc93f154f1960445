import Verif.Props.C57

/-!
Metrics that are put into a user name twice are there once.
-/
namespace Mqtt.Props
open Mqtt Mqtt.V5 Mqtt.Metrics Mqtt.Spec

/-- No parameter, and no entry of the metadata, is a mere equals sign. -/
def Tidy (u : Bytes) : Prop := ∀ base ps, Query u base ps → (∀ p ∈ ps, p.key ≠ [] ∨ p.value ≠ []) ∧
  ∀ v es, first ps (utf "Metadata") = some v → Entries v es → ∀ e ∈ es, e.key ≠ [] ∨ e.value ≠ []

theorem solid_eq {ps : List Param} (h : ∀ p ∈ ps, p.key ≠ [] ∨ p.value ≠ []) : solid ps = ps := by
  unfold solid
  rw [List.filter_eq_self]
  intro p hp
  simpa using h p hp

theorem mergeEntries_id {news : List Param} : ∀ {es : List Param}, (∀ e ∈ news, ∃ p ∈ es, p.key = e.key) →
    mergeEntries es news = es := by
  induction news with
  | nil => intro es _; rfl
  | cons e news ih =>
    intro es h
    have h1 : addIfAbsent es e.key e.value = es := by
      rw [addIfAbsent_eq]
      unfold missing
      rw [if_pos (h e (by simp))]
      simp
    show mergeEntries (addIfAbsent es e.key e.value) news = es
    rw [h1]
    exact ih fun x hx => h x (by simp [hx])

theorem mergeEntries_keys (es news : List Param) : ∀ e ∈ news, ∃ p ∈ mergeEntries es news, p.key = e.key := by
  intro e he
  have := (mergeEntries_spec news es).2 e.key
  have h1 : (first news e.key).isSome := by
    unfold first
    rw [Option.isSome_map, List.find?_isSome]
    exact ⟨e, he, by simp⟩
  have h2 : (first (mergeEntries es news) e.key).isSome := by
    rw [this]
    cases first es e.key <;> simp [h1]
  unfold first at h2
  rw [Option.isSome_map, List.find?_isSome] at h2
  obtain ⟨p, hp, hk⟩ := h2
  exact ⟨p, hp, by simpa using hk⟩

/-- Entries that were merged and written are read back, and merging the same ones again changes nothing. -/
theorem metadata_twice {es news : List Param} (hn : news ≠ []) (hes : ∀ e ∈ es, Writable [59] e) (hes2 : ∀ e ∈ es, e.key ≠ [] ∨ e.value ≠ [])
    (hnews : ∀ e ∈ news, Writable [59] e) (hnews2 : ∀ e ∈ news, e.key ≠ [] ∨ e.value ≠ []) :
    (metadataValue (mergeEntries es news)).length ≠ 0 ∧
    ∃ c, metadataContent (metadataValue (mergeEntries es news)) = some c ∧ mergeEntries (parseEntries 59 c) news = mergeEntries es news := by
  obtain ⟨⟨more, h1, h2⟩, _⟩ := mergeEntries_spec news es
  have hmem : ∀ e ∈ mergeEntries es news, Writable [59] e ∧ (e.key ≠ [] ∨ e.value ≠ []) := by
    intro e he
    rw [h1] at he
    rcases List.mem_append.1 he with he | he
    · exact ⟨hes e he, hes2 e he⟩
    · exact ⟨hnews e (h2 e he), hnews2 e (h2 e he)⟩
  have hne : mergeEntries es news ≠ [] := by
    intro he
    obtain ⟨e, l, rfl⟩ := List.exists_cons_of_ne_nil hn
    obtain ⟨p, hp, _⟩ := mergeEntries_keys es (e :: l) e (by simp)
    rw [he] at hp
    simp at hp
  have hr := metadataValue_reads _ hne fun e he => (hmem e he).1
  rw [solid_eq fun e he => (hmem e he).2] at hr
  obtain ⟨c, hc, hp⟩ := entries_iff.1 hr
  refine ⟨?_, c, hc, ?_⟩
  · rw [metadataContent_some.1 hc]; simp
  · rw [hp]; exact mergeEntries_id (mergeEntries_keys es news)

theorem addMetadata_some {a b : List Param} {p : Param} {news : List Param} (hn : news ≠ []) (hk : p.key = metadataKey)
    (ha : ∀ q ∈ a, q.key ≠ metadataKey) :
    addMetadata (a ++ p :: b) news =
      if p.value.length = 0 then a ++ ⟨metadataKey, metadataValue (mergeEntries [] news)⟩ :: b
      else match metadataContent p.value with
        | none => a ++ p :: b
        | some c => a ++ ⟨metadataKey, metadataValue (mergeEntries (parseEntries 59 c) news)⟩ :: b := by
  have hf : findParam (a ++ p :: b) metadataKey = some a.length := by
    unfold findParam
    rw [List.findIdx?_append, List.findIdx?_eq_none_iff.2 (by intro q hq; simpa using ha q hq)]
    simp [List.findIdx?_cons, hk]
  unfold addMetadata
  rw [if_neg (fun h => hn (List.length_eq_zero_iff.1 h)), hf]
  simp
  cases metadataContent p.value <;> rfl

/-- Adding the metadata once more changes nothing. -/
theorem addMetadata_twice {ps news : List Param} (hw : ∀ p ∈ ps, Writable [38, 63] p)
    (hm : ∀ v es, first ps metadataKey = some v → Entries v es → ∀ e ∈ es, e.key ≠ [] ∨ e.value ≠ [])
    (hnews : ∀ e ∈ news, Writable [59, 38, 63] e) (hnews2 : ∀ e ∈ news, e.key ≠ [] ∨ e.value ≠ []) :
    addMetadata (addMetadata ps news) news = addMetadata ps news := by
  by_cases hn : news = []
  · simp [addMetadata, hn]
  · have hnw : ∀ e ∈ news, Writable [59] e := fun e he => ⟨(hnews e he).1, fun c hc => (hnews e he).2 c (by simp at hc; simp [hc])⟩
    have hkey : ∀ (a b es : List Param), (∀ q ∈ a, q.key ≠ metadataKey) → (∀ e ∈ es, Writable [59] e) →
        (∀ e ∈ es, e.key ≠ [] ∨ e.value ≠ []) →
        addMetadata (a ++ ⟨metadataKey, metadataValue (mergeEntries es news)⟩ :: b) news =
          a ++ ⟨metadataKey, metadataValue (mergeEntries es news)⟩ :: b := by
      intro a b es ha h1 h2
      obtain ⟨h3, c, h4, h5⟩ := metadata_twice hn h1 h2 hnw hnews2
      rw [addMetadata_some hn rfl ha]
      simp only [if_neg h3, h4, h5]
    cases hf : findParam ps metadataKey with
    | none =>
      have : addMetadata ps news = ps ++ ⟨metadataKey, metadataValue (mergeEntries [] news)⟩ :: [] := by
        unfold addMetadata
        rw [if_neg (fun h => hn (List.length_eq_zero_iff.1 h)), hf]
      rw [this]
      refine hkey _ _ _ ?_ (by simp) (by simp)
      intro q hq hk
      exact findParam_none.1 hf ⟨q, hq, hk⟩
    | some i =>
      obtain ⟨a, p, b, rfl, hi, hk, ha⟩ := findParam_some hf
      have hfst := first_at (b := b) hk ha
      rw [addMetadata_some hn hk ha]
      by_cases hz : p.value.length = 0
      · simp only [if_pos hz]
        exact hkey _ _ _ ha (by simp) (by simp)
      · simp only [if_neg hz]
        cases hc : metadataContent p.value with
        | none =>
          simp only
          rw [addMetadata_some hn hk ha, if_neg hz, hc]
        | some c =>
          simp only
          have he : Entries p.value (parseEntries 59 c) := entries_iff.2 ⟨c, hc, rfl⟩
          refine hkey _ _ _ ha ?_ (hm _ _ hfst he)
          intro e hem
          obtain ⟨ls, hl1, hl2⟩ := (parseEntries_iff 59 c _).1 rfl
          have x := keyValues_writable hl2 hl1.2.1 e hem
          exact ⟨x.1, fun d hd => by simp at hd; subst hd; exact x.2⟩

theorem has_missing (ps : List Param) (k v : Bytes) : ∃ p ∈ ps ++ missing ps k v, p.key = k := by
  unfold missing
  by_cases h : ∃ p ∈ ps, p.key = k
  · rw [if_pos h]
    simpa using h
  · rw [if_neg h]
    exact ⟨⟨k, v⟩, by simp, rfl⟩

theorem addIfAbsent_id {ps : List Param} {k v : Bytes} (h : ∃ p ∈ ps, p.key = k) : addIfAbsent ps k v = ps := by
  rw [addIfAbsent_eq]
  unfold missing
  rw [if_pos h]
  simp

theorem addMetadata_keeps {ps news : List Param} (hw : ∀ p ∈ ps, Writable [38, 63] p) (hnews : ∀ e ∈ news, Writable [59, 38, 63] e)
    {k : Bytes} (hk : k ≠ metadataKey) (h : ∃ p ∈ ps, p.key = k) : ∃ p ∈ addMetadata ps news, p.key = k := by
  obtain ⟨p, hp, hpk⟩ := h
  have h1 := (addMetadata_spec ps news hnews hw).1
  have h2 : p ∈ plain ps := by
    unfold plain
    rw [metadata_literal]
    simp [hp, hpk, hk]
  rw [← h1] at h2
  exact ⟨p, (List.mem_filter.1 h2).1, hpk⟩

/-- All parameters of the new user name can be read back. -/
theorem addMetadata_solid {ps news : List Param} (h : ∀ p ∈ ps, p.key ≠ [] ∨ p.value ≠ []) :
    ∀ p ∈ addMetadata ps news, p.key ≠ [] ∨ p.value ≠ [] := by
  have hM : ∀ v, (⟨metadataKey, v⟩ : Param).key ≠ [] := by intro v; simp only; decide
  intro p hp
  unfold addMetadata at hp
  split at hp
  · exact h p hp
  · split at hp
    · simp only [List.mem_append, List.mem_singleton] at hp
      rcases hp with hp | rfl
      · exact h p hp
      · exact .inl (hM _)
    · simp only at hp
      split at hp
      · rcases List.mem_or_eq_of_mem_set hp with hp | rfl
        · exact h p hp
        · exact .inl (hM _)
      · split at hp
        · exact h p hp
        · rcases List.mem_or_eq_of_mem_set hp with hp | rfl
          · exact h p hp
          · exact .inl (hM _)

theorem first_missing (ps : List Param) {k : Bytes} (hk : k ≠ metadataKey) (v : Bytes) :
    first (ps ++ missing ps k v) metadataKey = first ps metadataKey := by
  unfold first missing
  split
  · simp
  · rw [List.find?_append]
    simp [hk]

/-- Metrics that are put into a user name that has them already leave it as it is. -/
theorem append_twice {platform u out : Bytes} {m : Metrics} (hm : CleanMetrics platform m)
    (hne : ∀ e ∈ m.entries, e.key ≠ [] ∨ e.value ≠ []) (ht : Tidy u) (b b' : Bool)
    (h : append platform u (some m) b = .ok out) : append platform out (some m) b' = .ok out := by
  have hq : Query u (parseUsername u).1 (parseUsername u).2 := (parseUsername_iff _ _ _).1 rfl
  generalize hb : (parseUsername u).1 = base at hq
  generalize hps : (parseUsername u).2 = ps at hq
  obtain ⟨t1, t2⟩ := ht _ _ hq
  rw [metadata_literal] at t2
  have hlib : ∀ c ∈ ([38, 63] : List UInt8), c ∉ (if m.libraryName.length > 0 then m.libraryName else defaultLibrary) := by
    intro c hc
    split
    · exact hm.library c hc
    · have hc' : c = 38 ∨ c = 63 := by simpa using hc
      rcases hc' with rfl | rfl <;> decide
  generalize hL : (if m.libraryName.length > 0 then m.libraryName else defaultLibrary) = lib at hlib
  have hnew : ∀ ps, newParams platform m ps = addMetadata (addIfAbsent (addIfAbsent ps sdkKey lib) platformKey platform) m.entries := by
    intro ps; unfold newParams; rw [hL]
  rw [append_cases, hb, hps] at h
  split at h
  · simp at h
  · rename_i hvm
    split at h
    · split at h <;> simp at h
    · rename_i hlen
      simp only [Result.ok.injEq] at h
      have hmiss : ∀ (qs : List Param) (k v : Bytes), k ≠ [] → Writable [38, 63] ⟨k, v⟩ →
          (∀ p ∈ qs, Writable [38, 63] p ∧ (p.key ≠ [] ∨ p.value ≠ [])) →
          ∀ p ∈ qs ++ missing qs k v, Writable [38, 63] p ∧ (p.key ≠ [] ∨ p.value ≠ []) := by
        intro qs k v hk hkv hqs p hp
        rcases List.mem_append.1 hp with hp | hp
        · exact hqs p hp
        · unfold missing at hp
          split at hp
          · simp at hp
          · rw [List.mem_singleton.1 hp]; exact ⟨hkv, .inl hk⟩
      have w1 := hmiss ps sdkKey lib (by decide) ⟨by simp only; decide, fun c hc => ⟨by
        have hc' : c = 38 ∨ c = 63 := by simpa using hc
        rcases hc' with rfl | rfl <;> simp only <;> decide, hlib c hc⟩⟩ (fun p hp => ⟨query_writable hq p hp, t1 p hp⟩)
      have w2 := hmiss _ platformKey platform (by decide) ⟨by simp only; decide, fun c hc => ⟨by
        have hc' : c = 38 ∨ c = 63 := by simpa using hc
        rcases hc' with rfl | rfl <;> simp only <;> decide, hm.platform c hc⟩⟩ w1
      have f1 := first_missing ps (k := sdkKey) (by decide) lib
      have f2 := first_missing (ps ++ missing ps sdkKey lib) (k := platformKey) (by decide) platform
      have s1 := has_missing ps sdkKey lib
      have s2 := has_missing (ps ++ missing ps sdkKey lib) platformKey platform
      have s3 : ∃ p ∈ ps ++ missing ps sdkKey lib ++ missing (ps ++ missing ps sdkKey lib) platformKey platform, p.key = sdkKey := by
        obtain ⟨p, hp, hk⟩ := s1
        exact ⟨p, List.mem_append_left _ hp, hk⟩
      have hP := hnew ps
      rw [addIfAbsent_eq, addIfAbsent_eq] at hP
      generalize hQ : ps ++ missing ps sdkKey lib ++ missing (ps ++ missing ps sdkKey lib) platformKey platform = qs at hP w2 s2 s3 f2
      have ww : ∀ p ∈ qs, Writable [38, 63] p := fun p hp => (w2 p hp).1
      have k1 := addMetadata_keeps ww hm.entries (by decide) s3
      have k2 := addMetadata_keeps ww hm.entries (by decide) s2
      have hid : newParams platform m (newParams platform m ps) = newParams platform m ps := by
        rw [hnew (newParams platform m ps), hP, addIfAbsent_id k1, addIfAbsent_id k2]
        refine addMetadata_twice ww ?_ hm.entries hne
        rw [f2, f1]
        exact t2
      have hpw := (addMetadata_spec qs m.entries hm.entries ww).2.1
      rw [← hP] at hpw k1
      have hPne : newParams platform m ps ≠ [] := by
        intro he; obtain ⟨p, hp, _⟩ := k1; rw [he] at hp; simp at hp
      have hsol := addMetadata_solid (news := m.entries) fun p hp => (w2 p hp).2
      rw [← hP] at hsol
      have hr := usernameQuery_reads base _ hPne hpw
      rw [solid_eq hsol, h] at hr
      have hparse := (parseUsername_iff _ _ _).2 hr
      have hnl : newLength platform out m = newLength platform u m := by
        unfold newLength
        rw [hparse, hb, hps]
        simp only [hid]
      rw [append_cases, hnl, if_neg hvm, if_neg hlen, hparse]
      simp only [hid, h]

end Mqtt.Props
