import Verif.TopicUtils5
import Verif.Props.C08

/-!
C39: shared subscriptions and the AWS IoT Core limits.

The definitions: a shared subscription is `$share/<group>/<filter>` (MQTT 5, 4.8.2).  AWS IoT Core counts
levels and length without a `$share/<group>/` prefix and without a following `$aws/rules/<rule>/` prefix.
-/
namespace Mqtt.Props
open Mqtt Mqtt.Spec Mqtt.V5

/-- A group name: not empty, no slash, no wildcard character. -/
def Group (g : Bytes) : Prop := g ≠ [] ∧ (47 : UInt8) ∉ g ∧ (43 : UInt8) ∉ g ∧ (35 : UInt8) ∉ g

/-- `t` is `<first level>/<group>/<rest>`. -/
def SharedForm (first t rest : Bytes) : Prop := ∃ g, Group g ∧ t = first ++ 47 :: (g ++ 47 :: rest)

/-- MQTT 5: a shared subscription with the literal `$share`. -/
def Shared (t : Bytes) : Prop := ∃ rest, SharedForm "$share".toUTF8.toList t rest ∧ TopicFilter rest

/-- `s` is `w` up to the case of ASCII letters. -/
def CaseVariant (w s : Bytes) : Prop :=
  w.length = s.length ∧ ∀ (i : Nat) (h : i < w.length) (h' : i < s.length),
    s[i] = w[i] ∨ (97 ≤ w[i] ∧ w[i] ≤ 122 ∧ s[i] + 32 = w[i])

theorem lower_fixed_or : ∀ b w : UInt8, lower w = w →
    (lower b = w ↔ b = w ∨ (97 ≤ w ∧ w ≤ 122 ∧ b + 32 = w)) := by
  intro b w hw
  unfold lower at hw ⊢
  have hb := b.toNat_lt
  have hwl := w.toNat_lt
  simp only [UInt8.le_iff_toNat_le, UInt8.toNat_ofNat] at *
  constructor
  · intro h
    split at h
    · right
      have := congrArg UInt8.toNat h
      simp at this
      refine ⟨by omega, by omega, h⟩
    · exact .inl h
  · rintro (h | ⟨h1, h2, h3⟩)
    · subst h; exact hw
    · have := congrArg UInt8.toNat h3
      simp at this
      rw [if_pos (by omega)]
      exact h3

theorem eqIgnoreCase_iff (w s : Bytes) (hw : w.map lower = w) : eqIgnoreCase w s = true ↔ CaseVariant w s := by
  unfold eqIgnoreCase CaseVariant
  rw [beq_iff_eq, hw]
  have hfix : ∀ (i : Nat) (h : i < w.length), lower w[i] = w[i] := by
    intro i h
    have := congrArg (fun l => l[i]?) hw
    simpa [h] using this
  constructor
  · intro h
    have hl : w.length = s.length := by have := congrArg List.length h; simpa using this
    refine ⟨hl, ?_⟩
    intro i h1 h2
    rw [← lower_fixed_or _ _ (hfix i h1)]
    have := congrArg (fun l => l[i]?) h
    simp [h1, h2] at this
    exact this.symm
  · rintro ⟨hl, h⟩
    apply List.ext_getElem (by simp [hl])
    intro i h1 h2
    rw [List.getElem_map]
    have h2' : i < s.length := by simpa using h2
    exact ((lower_fixed_or _ _ (hfix i h1)).2 (h i h1 h2')).symm

theorem lower_slash (b : UInt8) (h : lower b = 47) : b = 47 := by
  have := (lower_fixed_or b 47 (by decide)).1 h
  rcases this with h | ⟨h, _⟩
  · exact h
  · exact absurd h (by decide)

theorem variant_no_slash {w s : Bytes} (hw : w.map lower = w) (h47 : (47 : UInt8) ∉ w)
    (h : CaseVariant w s) : (47 : UInt8) ∉ s := by
  rw [← eqIgnoreCase_iff w s hw] at h
  unfold eqIgnoreCase at h
  rw [beq_iff_eq, hw] at h
  intro hm
  apply h47
  rw [h]
  exact List.mem_map.2 ⟨47, hm, by decide⟩

theorem first_slash {t : Bytes} (h : (47 : UInt8) ∈ t) : ∃ a b, t = a ++ 47 :: b ∧ (47 : UInt8) ∉ a := by
  induction t with
  | nil => simp at h
  | cons x t ih =>
    by_cases hx : x = 47
    · exact ⟨[], t, by simp [hx], by simp⟩
    · obtain ⟨a, b, rfl, ha⟩ := ih (by simpa [Ne.symm hx] using h)
      exact ⟨x :: a, b, rfl, by simp [Ne.symm hx, ha]⟩

theorem split_cases (t : Bytes) :
    (split 47 t = [t] ∧ (47 : UInt8) ∉ t) ∨
    ∃ a b, t = a ++ 47 :: b ∧ (47 : UInt8) ∉ a ∧ split 47 t = a :: split 47 b := by
  by_cases h : (47 : UInt8) ∈ t
  · right
    obtain ⟨a, b, rfl, ha⟩ := first_slash h
    exact ⟨a, b, rfl, ha, split_append_slash a b ha⟩
  · exact .inl ⟨split_single t h, h⟩

/-- Whether a cut at the first slash is unique. -/
theorem cut_unique {a b a' b' : Bytes} (ha : (47 : UInt8) ∉ a) (ha' : (47 : UInt8) ∉ a')
    (h : a ++ 47 :: b = a' ++ 47 :: b') : a = a' ∧ b = b' := by
  induction a generalizing a' with
  | nil =>
    cases a' with
    | nil => simpa using h
    | cons x a' => simp at h; exact absurd (by simp [h.1]) ha'
  | cons x a ih =>
    cases a' with
    | nil => simp at h; exact absurd (by simp [h.1]) ha
    | cons y a' =>
      simp at h
      obtain ⟨rfl, h⟩ := h
      obtain ⟨rfl, rfl⟩ := ih (by simp at ha; exact ha.2) (by simp at ha'; exact ha'.2) h
      exact ⟨rfl, rfl⟩

theorem share_lower : sharePrefix.map lower = sharePrefix := by decide
theorem rules_lower : rulesPrefix.map lower = rulesPrefix := by decide
theorem share_no_slash : (47 : UInt8) ∉ sharePrefix := by decide

theorem group_iff (g : Bytes) (h47 : (47 : UInt8) ∉ g) :
    ¬ (g.length = 0 ∨ !g.all (fun b => b != 43 && b != 35)) ↔ Group g := by
  unfold Group
  simp only [Bool.not_eq_eq_eq_not, Bool.not_true, not_or, List.length_eq_zero_iff, List.all_eq_false,
    Bool.and_eq_true, bne_iff_ne, ne_eq, not_exists, not_and]
  constructor
  · rintro ⟨h1, h2⟩
    refine ⟨h1, h47, ?_, ?_⟩
    · intro h; exact h2 _ h (by simp)
    · intro h; exact h2 _ h (by simp)
  · rintro ⟨h1, _, h2, h3⟩
    refine ⟨h1, ?_⟩
    intro x hx
    have e1 : x ≠ 43 := fun e => h2 (e ▸ hx)
    have e2 : x ≠ 35 := fun e => h3 (e ▸ hx)
    simp [e1, e2]

/-- `skipShared` removes exactly a `$share/<group>/` prefix, in any case of the letters of `$share`. -/
theorem skipShared_of_form {s t r : Bytes} (hs : CaseVariant sharePrefix s) (h : SharedForm s t r) :
    skipShared t = r := by
  obtain ⟨g, hg, rfl⟩ := h
  have hs47 := variant_no_slash share_lower share_no_slash hs
  unfold skipShared
  rw [split_append_slash _ _ hs47, split_append_slash _ _ hg.2.1]
  simp only
  rw [if_neg (by rw [(eqIgnoreCase_iff _ _ share_lower).2 hs]; simp), if_neg ((group_iff g hg.2.1).2 hg)]
  have hl : (s ++ 47 :: (g ++ 47 :: r)).length - (s.length + 1 + g.length) = r.length + 1 := by simp; omega
  rw [hl, if_neg (by omega)]
  have hl2 : (s ++ 47 :: (g ++ 47 :: r)).length - (r.length + 1) + 1 = (s ++ 47 :: (g ++ [47])).length := by
    simp; omega
  rw [hl2]
  have : s ++ 47 :: (g ++ 47 :: r) = (s ++ 47 :: (g ++ [47])) ++ r := by simp
  rw [this, List.drop_left]

theorem skipShared_cases (t : Bytes) :
    (∃ s, CaseVariant sharePrefix s ∧ SharedForm s t (skipShared t)) ∨
    ((∀ s r, CaseVariant sharePrefix s → ¬ SharedForm s t r) ∧ skipShared t = t) := by
  by_cases h : ∃ s r, CaseVariant sharePrefix s ∧ SharedForm s t r
  · obtain ⟨s, r, h1, h2⟩ := h
    exact .inl ⟨s, h1, by rw [skipShared_of_form h1 h2]; exact h2⟩
  · right
    have hno : ∀ s r, CaseVariant sharePrefix s → ¬ SharedForm s t r := fun s r h1 h2 => h ⟨s, r, h1, h2⟩
    refine ⟨hno, ?_⟩
    rcases split_cases t with ⟨h1, _⟩ | ⟨a, b, rfl, ha, h1⟩
    · unfold skipShared; rw [h1]
    · rcases split_cases b with ⟨h2, hb⟩ | ⟨g, r, rfl, hg, h2⟩
      · unfold skipShared
        rw [h1, h2]
        simp only
        split
        · rfl
        · split
          · rfl
          · have : (a ++ 47 :: b).length - (a.length + 1 + b.length) = 0 := by simp; omega
            rw [if_pos this]
      · unfold skipShared
        rw [h1, h2]
        simp only
        split
        · rfl
        · rename_i hc
          split
          · rfl
          · rename_i hgr
            exfalso
            exact hno a r ((eqIgnoreCase_iff _ _ share_lower).1 (by simpa using hc)) ⟨g, (group_iff g hg).1 hgr, rfl⟩

theorem form_longer {s t r : Bytes} (h : SharedForm s t r) : r.length < t.length := by
  obtain ⟨g, _, rfl⟩ := h
  simp; omega

/-- What the code decides, for every byte string: shared iff `$share` in any case, a group and a legal
filter. -/
theorem C39_shared_exact (t : Bytes) :
    isShared t = true ↔ ∃ s rest, CaseVariant sharePrefix s ∧ SharedForm s t rest ∧ TopicFilter rest := by
  unfold isShared
  rcases skipShared_cases t with ⟨s, hs, hf⟩ | ⟨hno, he⟩
  · have := form_longer hf
    rw [if_neg (by omega), C08_filter]
    constructor
    · intro h; exact ⟨s, _, hs, hf, h⟩
    · rintro ⟨s', r, hs', hf', h⟩
      rw [skipShared_of_form hs' hf']; exact h
  · rw [he, if_pos rfl]
    simp only [Bool.false_eq_true, false_iff]
    rintro ⟨s, r, hs, hf, _⟩
    exact hno s r hs hf

theorem share_literal : "$share".toUTF8.toList = sharePrefix := by decide +kernel

theorem variant_refl (w : Bytes) : CaseVariant w w := ⟨rfl, fun _ _ _ => .inl rfl⟩

/-- C39, true part: every MQTT 5 shared subscription is recognised, and every filter recognised is one,
unless its first level is `$share` written with capital letters. -/
theorem C39_shared_partial (t : Bytes) :
    (Shared t → isShared t = true) ∧
    (isShared t = true → Shared t ∨ ∃ s rest, s ≠ sharePrefix ∧ CaseVariant sharePrefix s ∧ t = s ++ 47 :: rest) := by
  rw [C39_shared_exact]
  unfold Shared
  rw [share_literal]
  constructor
  · rintro ⟨r, h1, h2⟩; exact ⟨_, r, variant_refl _, h1, h2⟩
  · rintro ⟨s, r, h1, h2, h3⟩
    by_cases hs : s = sharePrefix
    · subst hs; exact .inl ⟨r, h2, h3⟩
    · obtain ⟨g, _, rfl⟩ := h2
      exact .inr ⟨s, _, hs, h1, rfl⟩

theorem utf8_slash {c : Nat} (hc : c < 0x110000) (h : (47 : UInt8) ∈ utf8 c) : utf8 c = [47] := by
  have hb : ∀ n, 128 ≤ n → n < 256 → (47 : UInt8) ≠ UInt8.ofNat n := by
    intro n h1 h2 e
    have := congrArg UInt8.toNat e
    rw [toNat_ofNat_lt h2] at this
    simp at this; omega
  unfold utf8 at h ⊢
  split at h
  · rename_i h1
    rw [if_pos h1]; simp at h; rw [h]
  · split at h
    · simp only [List.mem_cons, List.not_mem_nil, or_false] at h
      rcases h with h | h
      · exact absurd h (hb _ (by omega) (by omega))
      · exact absurd h (hb _ (by omega) (by omega))
    · split at h
      · simp only [List.mem_cons, List.not_mem_nil, or_false] at h
        rcases h with h | h | h <;> exact absurd h (hb _ (by omega) (by omega))
      · simp only [List.mem_cons, List.not_mem_nil, or_false] at h
        rcases h with h | h | h | h <;> exact absurd h (hb _ (by omega) (by omega))

/-- Text after a slash is text. -/
theorem text_after {a b : Bytes} (h : Text (a ++ 47 :: b)) : Text b := by
  obtain ⟨cps, hc, he⟩ := h
  induction cps generalizing a with
  | nil => simp at he
  | cons c cps ih =>
    have hc' : ∀ d ∈ cps, Scalar d ∧ ¬ Disallowed d := fun d hd => hc d (List.mem_cons_of_mem _ hd)
    rw [List.flatMap_cons] at he
    rcases List.append_eq_append_iff.1 he with ⟨a', h1, h2⟩ | ⟨c', h1, h2⟩
    · cases a' with
      | nil =>
        simp only [List.nil_append] at h2
        exact ih (a := []) hc' h2
      | cons x a' =>
        simp only [List.cons_append, List.cons.injEq] at h2
        obtain ⟨rfl, rfl⟩ := h2
        have := utf8_slash (hc c (by simp)).1.1 (by rw [h1]; simp)
        rw [this] at h1
        cases a with
        | nil => simp at h1; subst h1; exact ⟨cps, hc', by simp⟩
        | cons y a => simp at h1
    · exact ih hc' h2.symm

/-- What follows a level of a legal filter is a legal filter, unless it is empty. -/
theorem filter_after {a b : Bytes} (ha : (47 : UInt8) ∉ a) (h : TopicFilter (a ++ 47 :: b)) (hb : b ≠ []) :
    TopicFilter b := by
  obtain ⟨_, h2, h3, ls, h4, h5, h6⟩ := h
  rw [levels_iff, split_append_slash _ _ ha] at h4
  subst h4
  refine ⟨?_, ?_, text_after h3, split 47 b, levels_iff.2 rfl, ?_, ?_⟩
  · exact List.length_pos_iff.2 hb
  · simp at h2; omega
  · intro l hl; exact h5 l (List.mem_cons_of_mem _ hl)
  · intro pre l post e; exact h6 (a :: pre) l post (by simp [e])

/-- For legal filters, as the property has it: any non-empty rest will do. -/
theorem C39_shared_filter_partial (t : Bytes) (ht : TopicFilter t)
    (hcase : ∀ s rest, t = s ++ 47 :: rest → CaseVariant sharePrefix s → s = sharePrefix) :
    isShared t = true ↔ ∃ rest, rest ≠ [] ∧ SharedForm "$share".toUTF8.toList t rest := by
  rw [share_literal, C39_shared_exact]
  constructor
  · rintro ⟨s, r, h1, h2, h3⟩
    have hs : s = sharePrefix := by
      obtain ⟨g, _, h⟩ := h2
      exact hcase s _ h h1
    subst hs
    exact ⟨r, List.length_pos_iff.1 h3.1, h2⟩
  · rintro ⟨r, hr, hf⟩
    refine ⟨_, r, variant_refl _, hf, ?_⟩
    obtain ⟨g, hg, rfl⟩ := hf
    exact filter_after hg.2.1 (filter_after share_no_slash ht (by simp)) hr

/-- C39 fails: `$SHARE/g/a` is an ordinary filter, but treated as a shared subscription. -/
theorem C39_violated : ∃ t, TopicFilter t ∧ isShared t = true ∧ ¬ Shared t := by
  refine ⟨[36, 83, 72, 65, 82, 69, 47, 103, 47, 97], (C08_filter _).1 (by decide +kernel), by decide +kernel, ?_⟩
  rintro ⟨r, ⟨g, _, h⟩, _⟩
  rw [share_literal] at h
  simp [sharePrefix] at h

/-! ### AWS IoT Core limits -/

/-- `u` is `t` without a `$share/<group>/` prefix, if it has one. -/
def WithoutShare (t u : Bytes) : Prop :=
  (∃ s, CaseVariant sharePrefix s ∧ SharedForm s t u) ∨
  ((∀ s r, CaseVariant sharePrefix s → ¬ SharedForm s t r) ∧ u = t)

/-- `t` is `$aws/rules/<rule>/<rest>`, in any case. -/
def RulesForm (t rest : Bytes) : Prop :=
  ∃ s rule, CaseVariant rulesPrefix s ∧ (47 : UInt8) ∉ rule ∧ t = s ++ (rule ++ 47 :: rest)

def WithoutRules (t u : Bytes) : Prop := RulesForm t u ∨ ((∀ r, ¬ RulesForm t r) ∧ u = t)

theorem skipRules_of_form {t r : Bytes} (h : RulesForm t r) : skipRules t = r := by
  obtain ⟨s, rule, hs, h47, rfl⟩ := h
  have hl : rulesPrefix.length = s.length := hs.1
  unfold skipRules
  rw [if_neg (by rw [hl]; simp), hl, List.take_left, List.drop_left]
  rw [if_neg (by rw [(eqIgnoreCase_iff _ _ rules_lower).2 hs]; simp)]
  simp only
  have hh : (split 47 (rule ++ 47 :: r)).headD [] = rule := by rw [split_append_slash _ _ h47]; rfl
  rw [if_neg (by simp), hh, if_neg (by simp)]
  have : rule ++ 47 :: r = (rule ++ [47]) ++ r := by simp
  rw [this]
  have h2 : rule.length + 1 = (rule ++ [47]).length := by simp
  rw [h2, List.drop_left]

theorem skipRules_spec (t : Bytes) : WithoutRules t (skipRules t) := by
  by_cases h : ∃ r, RulesForm t r
  · obtain ⟨r, h⟩ := h
    left; rw [skipRules_of_form h]; exact h
  · right
    have hno : ∀ r, ¬ RulesForm t r := fun r hr => h ⟨r, hr⟩
    refine ⟨hno, ?_⟩
    unfold skipRules
    split
    · rfl
    · rename_i h1
      split
      · rfl
      · rename_i h2
        simp only
        split
        · rfl
        · split
          · rfl
          · rename_i h3 h4
            exfalso
            have hv := (eqIgnoreCase_iff _ _ rules_lower).1 (by simpa using h2)
            rcases split_cases (t.drop rulesPrefix.length) with ⟨h5, _⟩ | ⟨a, b, h5, ha, _⟩
            · rw [h5] at h4; simp at h4
            · exact hno b ⟨t.take rulesPrefix.length, a, hv, ha, by rw [← h5, List.take_append_drop]⟩

theorem skipUncounted_spec (t : Bytes) : ∃ u, WithoutShare t u ∧ WithoutRules u (skipUncounted t) :=
  ⟨skipShared t, skipShared_cases t, skipRules_spec _⟩

theorem without_unique {t u v u' v' : Bytes} (h1 : WithoutShare t u) (h2 : WithoutRules u v)
    (h1' : WithoutShare t u') (h2' : WithoutRules u' v') : v = v' := by
  have e1 : ∀ w, WithoutShare t w → skipShared t = w := by
    rintro w (⟨s, hs, hf⟩ | ⟨hno, rfl⟩)
    · exact skipShared_of_form hs hf
    · rcases skipShared_cases w with ⟨s, hs, hf⟩ | ⟨_, h⟩
      · exact absurd hf (hno s _ hs)
      · exact h
  have e2 : ∀ w x, WithoutRules w x → skipRules w = x := by
    rintro w x (h | ⟨hno, rfl⟩)
    · exact skipRules_of_form h
    · rcases skipRules_spec x with h | ⟨_, h⟩
      · exact absurd h (hno _)
      · exact h
  rw [← e1 u h1] at h2
  rw [← e1 u' h1'] at h2'
  rw [← e2 _ _ h2, ← e2 _ _ h2']

/-- C39: a topic is within the limits iff what remains after the uncounted prefixes has at most 8 levels
and 256 bytes. -/
theorem C39_topic_limits (t : Bytes) :
    validTopicForIotCore t = true ↔
      ∃ u v ls, WithoutShare t u ∧ WithoutRules u v ∧ Levels v ls ∧ ls.length ≤ 8 ∧ v.length ≤ 256 := by
  obtain ⟨u, h1, h2⟩ := skipUncounted_spec t
  unfold validTopicForIotCore segmentCount
  constructor
  · intro h
    split at h
    · simp at h
    · exact ⟨u, _, _, h1, h2, split_levels _, by omega, by simpa using h⟩
  · rintro ⟨u', v, ls, h1', h2', h3, h4, h5⟩
    have := without_unique h1 h2 h1' h2'
    rw [this, levels_iff.1 h3, if_neg (by omega)]
    simpa using h5

/-- C39: a filter is within the limits iff what remains has at most 8 levels. -/
theorem C39_filter_limits (t : Bytes) :
    validFilterForIotCore t = true ↔
      ∃ u v ls, WithoutShare t u ∧ WithoutRules u v ∧ Levels v ls ∧ ls.length ≤ 8 := by
  obtain ⟨u, h1, h2⟩ := skipUncounted_spec t
  unfold validFilterForIotCore segmentCount
  rw [decide_eq_true_iff]
  constructor
  · intro h
    exact ⟨u, _, _, h1, h2, split_levels _, h⟩
  · rintro ⟨u', v, ls, h1', h2', h3, h4⟩
    have := without_unique h1 h2 h1' h2'
    rw [this, levels_iff.1 h3]
    exact h4

/-! ### Cases -/

def utf (s : String) : Bytes := s.toUTF8.toList

example : isShared (utf "$share/g/a/+/#") = true ∧ isShared (utf "$share/g/") = false ∧ isShared (utf "$share/g") = false ∧
    isShared (utf "$share//a") = false ∧ isShared (utf "$share/+/a") = false ∧ isShared (utf "$shared/g/a") = false ∧
    isShared (utf "$share/g//") = true := by
  decide +kernel

example : Shared (utf "$share/g/a") := ⟨utf "a", ⟨utf "g", by unfold Group; decide +kernel, by decide +kernel⟩, (C08_filter _).1 (by decide +kernel)⟩

example : validTopicForIotCore (utf "$share/g/$aws/rules/r/1/2/3/4/5/6/7/8") = true ∧
    validTopicForIotCore (utf "$aws/rules/r/1/2/3/4/5/6/7/8/9") = false ∧
    validTopicForIotCore (utf "1/2/3/4/5/6/7/8") = true ∧ validTopicForIotCore (utf "1/2/3/4/5/6/7/8/9") = false ∧
    validTopicForIotCore (List.replicate 256 97) = true ∧ validTopicForIotCore (List.replicate 257 97) = false ∧
    validFilterForIotCore (List.replicate 257 97) = true ∧ validFilterForIotCore (utf "1/2/3/4/5/6/7/8/9") = false := by
  decide +kernel

end Mqtt.Props
