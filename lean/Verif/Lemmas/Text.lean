import Verif.Text
import Verif.Spec.Topic

namespace Mqtt
open Mqtt.Spec

/-! ### split -/

theorem split_ne_nil (c : UInt8) (t : Bytes) : split c t ≠ [] := by
  cases t with
  | nil => simp [split]
  | cons b bs =>
    rw [split]
    split
    · simp
    · split <;> simp

theorem split_levels_aux (t : Bytes) : (∀ l ∈ split 47 t, (47 : UInt8) ∉ l) ∧
    t = ((split 47 t).intersperse [47]).flatten := by
  induction t with
  | nil => simp [split]
  | cons b bs ih =>
    rw [split]
    split
    · next h =>
      subst h
      refine ⟨?_, ?_⟩
      · intro l hl
        simp only [List.mem_cons] at hl
        rcases hl with rfl | hl
        · simp
        · exact ih.1 l hl
      · cases hs : split 47 bs with
        | nil => exact absurd hs (split_ne_nil _ _)
        | cons l ls =>
          rw [hs] at ih
          rw [List.intersperse_cons_cons]
          simp [← ih.2]
    · next h =>
      cases hs : split 47 bs with
      | nil => exact absurd hs (split_ne_nil _ _)
      | cons l ls =>
        rw [hs] at ih
        simp only
        refine ⟨?_, ?_⟩
        · intro m hm
          simp only [List.mem_cons] at hm
          rcases hm with rfl | hm
          · simp only [List.mem_cons, not_or]
            exact ⟨fun e => h e.symm, ih.1 l (by simp)⟩
          · exact ih.1 m (by simp [hm])
        · have h2 := ih.2
          cases ls with
          | nil => simpa using h2
          | cons l2 ls => 
            simp only [List.intersperse_cons_cons, List.flatten_cons, List.cons_append] at h2 ⊢
            rw [← h2]

theorem split_levels (t : Bytes) : Levels t (split 47 t) :=
  ⟨split_ne_nil _ _, split_levels_aux t⟩

theorem split_append_slash (a b : Bytes) (h : (47 : UInt8) ∉ a) : split 47 (a ++ 47 :: b) = a :: split 47 b := by
  induction a with
  | nil => simp [split]
  | cons x xs ih =>
    simp only [List.mem_cons, not_or] at h
    rw [List.cons_append, split, if_neg (fun e => h.1 e.symm), ih h.2]

theorem split_single (a : Bytes) (h : (47 : UInt8) ∉ a) : split 47 a = [a] := by
  induction a with
  | nil => simp [split]
  | cons x xs ih =>
    simp only [List.mem_cons, not_or] at h
    rw [split, if_neg (fun e => h.1 e.symm), ih h.2]

theorem split_of_levels {t : Bytes} {ls : List Bytes} (h : Levels t ls) : split 47 t = ls := by
  obtain ⟨hne, hno, rfl⟩ := h
  induction ls with
  | nil => exact absurd rfl hne
  | cons l ls ih =>
    cases ls with
    | nil => simpa using split_single l (hno l (by simp))
    | cons l2 ls =>
      rw [List.intersperse_cons_cons, List.flatten_cons, List.flatten_cons, List.singleton_append,
        split_append_slash _ _ (hno l (by simp)), ih (by simp) (fun m hm => hno m (by simp [hm]))]

theorem levels_iff {t : Bytes} {ls : List Bytes} : Levels t ls ↔ split 47 t = ls :=
  ⟨split_of_levels, fun h => h ▸ split_levels t⟩

theorem mem_of_mem_split {t : Bytes} {c : UInt8} (hc : c ≠ 47) : c ∈ t ↔ ∃ l ∈ split 47 t, c ∈ l := by
  induction t with
  | nil => simp [split]
  | cons b bs ih =>
    rw [split]
    split
    · next h => subst h; simp [hc, ih]
    · cases hs : split 47 bs with
      | nil => exact absurd hs (split_ne_nil _ _)
      | cons l ls =>
        rw [hs] at ih
        simp only [List.mem_cons, ih, exists_eq_or_imp, or_assoc]

/-! ### UTF-8 -/

theorem toNat_ofNat_lt {n : Nat} (h : n < 256) : (UInt8.ofNat n).toNat = n := by
  simp [UInt8.toNat_ofNat']; omega

theorem utf8Go_utf8 (c : Nat) (hc : Scalar c) (rest : Bytes) :
    utf8Go 0 0 0 (utf8 c ++ rest) = (utf8Go 0 0 0 rest).map (c :: ·) := by
  obtain ⟨h1, h2⟩ := hc
  unfold utf8
  split
  · have e := toNat_ofNat_lt (n := c) (by omega)
    simp only [List.cons_append, List.nil_append, utf8Go, e, if_pos ‹c < 0x80›]
  split
  · have e1 := toNat_ofNat_lt (n := 0xC0 + c / 64) (by omega)
    have e2 := toNat_ofNat_lt (n := 0x80 + c % 64) (by omega)
    have hv : (0xC0 + c / 64 - 0xC0) * 64 + (0x80 + c % 64 - 0x80) = c := by omega
    simp only [List.cons_append, List.nil_append, utf8Go, e1, e2, hv]
    rw [if_neg (by omega), if_neg (by omega), if_pos (by omega), if_neg (by omega), if_neg (by omega),
      if_neg (by omega)]
  split
  · have e1 := toNat_ofNat_lt (n := 0xE0 + c / 4096) (by omega)
    have e2 := toNat_ofNat_lt (n := 0x80 + c / 64 % 64) (by omega)
    have e3 := toNat_ofNat_lt (n := 0x80 + c % 64) (by omega)
    have hv : ((0xE0 + c / 4096 - 0xE0) * 64 + (0x80 + c / 64 % 64 - 0x80)) * 64 + (0x80 + c % 64 - 0x80) = c := by omega
    simp only [List.cons_append, List.nil_append, utf8Go, e1, e2, e3, hv]
    rw [if_neg (by omega), if_neg (by omega), if_neg (by omega), if_pos (by omega), if_neg (by omega), if_pos (by omega),
      if_neg (by omega), if_neg (by omega), if_neg (by omega)]
  · have e1 := toNat_ofNat_lt (n := 0xF0 + c / 262144) (by omega)
    have e2 := toNat_ofNat_lt (n := 0x80 + c / 4096 % 64) (by omega)
    have e3 := toNat_ofNat_lt (n := 0x80 + c / 64 % 64) (by omega)
    have e4 := toNat_ofNat_lt (n := 0x80 + c % 64) (by omega)
    have hv : (((0xF0 + c / 262144 - 0xF0) * 64 + (0x80 + c / 4096 % 64 - 0x80)) * 64 + (0x80 + c / 64 % 64 - 0x80)) * 64
        + (0x80 + c % 64 - 0x80) = c := by omega
    simp only [List.cons_append, List.nil_append, utf8Go, e1, e2, e3, e4, hv]
    rw [if_neg (by omega), if_neg (by omega), if_neg (by omega), if_neg (by omega), if_pos (by omega), if_neg (by omega),
      if_pos (by omega), if_neg (by omega), if_pos (by omega), if_neg (by omega), if_neg (by omega), if_neg (by omega)]

theorem utf8Go_flatMap (cps : List Nat) (h : ∀ c ∈ cps, Scalar c) : utf8Go 0 0 0 (cps.flatMap utf8) = some cps := by
  induction cps with
  | nil => simp [utf8Go]
  | cons c cps ih =>
    rw [List.flatMap_cons, utf8Go_utf8 c (h c (by simp)), ih (fun d hd => h d (by simp [hd]))]
    rfl

theorem ofNat_eq_of_toNat {b : UInt8} {n : Nat} (h : n = b.toNat) : UInt8.ofNat n = b := by
  subst h; simp

/-- One accepted character. -/
theorem utf8Go_inv {bs : Bytes} {cps : List Nat} (h : utf8Go 0 0 0 bs = some cps) (hne : bs ≠ []) :
    ∃ c rest cps', cps = c :: cps' ∧ Scalar c ∧ bs = utf8 c ++ rest ∧ utf8Go 0 0 0 rest = some cps' := by
  match bs, hne with
  | b :: bs, _ =>
    have hb := b.toNat_lt
    rw [utf8Go] at h
    split at h
    · next h1 =>
      obtain ⟨cps', h2, rfl⟩ := Option.map_eq_some_iff.1 h
      refine ⟨b.toNat, bs, cps', rfl, ⟨by omega, by omega⟩, ?_, h2⟩
      simp [utf8, h1]
    split at h
    · simp at h
    split at h
    · cases bs with
      | nil => simp [utf8Go] at h
      | cons b1 bs =>
        have hb1 := b1.toNat_lt
        rw [utf8Go] at h
        split at h
        · simp at h
        simp only [ne_eq, not_true_eq_false, if_false] at h
        split at h
        · simp at h
        obtain ⟨cps', h2, rfl⟩ := Option.map_eq_some_iff.1 h
        refine ⟨_, bs, cps', rfl, ⟨by omega, by omega⟩, ?_, h2⟩
        rw [utf8, if_neg (by omega), if_pos (by omega), ofNat_eq_of_toNat (b := b) (by omega),
          ofNat_eq_of_toNat (b := b1) (by omega)]
        rfl
    split at h
    · cases bs with
      | nil => simp [utf8Go] at h
      | cons b1 bs =>
        have hb1 := b1.toNat_lt
        rw [utf8Go] at h
        split at h
        · simp at h
        rw [if_pos (by decide)] at h
        cases bs with
        | nil => simp [utf8Go] at h
        | cons b2 bs =>
          have hb2 := b2.toNat_lt
          rw [utf8Go] at h
          split at h
          · simp at h
          simp only [ne_eq, not_true_eq_false, if_false] at h
          split at h
          · simp at h
          obtain ⟨cps', h2, rfl⟩ := Option.map_eq_some_iff.1 h
          refine ⟨_, bs, cps', rfl, ⟨by omega, by omega⟩, ?_, h2⟩
          rw [utf8, if_neg (by omega), if_neg (by omega), if_pos (by omega), ofNat_eq_of_toNat (b := b) (by omega),
            ofNat_eq_of_toNat (b := b1) (by omega), ofNat_eq_of_toNat (b := b2) (by omega)]
          rfl
    split at h
    · cases bs with
      | nil => simp [utf8Go] at h
      | cons b1 bs =>
        have hb1 := b1.toNat_lt
        rw [utf8Go] at h
        split at h
        · simp at h
        rw [if_pos (by decide)] at h
        cases bs with
        | nil => simp [utf8Go] at h
        | cons b2 bs =>
          have hb2 := b2.toNat_lt
          rw [utf8Go] at h
          split at h
          · simp at h
          rw [if_pos (by decide)] at h
          cases bs with
          | nil => simp [utf8Go] at h
          | cons b3 bs =>
            have hb3 := b3.toNat_lt
            rw [utf8Go] at h
            split at h
            · simp at h
            simp only [ne_eq, not_true_eq_false, if_false] at h
            split at h
            · simp at h
            obtain ⟨cps', h2, rfl⟩ := Option.map_eq_some_iff.1 h
            refine ⟨_, bs, cps', rfl, ⟨by omega, by omega⟩, ?_, h2⟩
            rw [utf8, if_neg (by omega), if_neg (by omega), if_neg (by omega), ofNat_eq_of_toNat (b := b) (by omega),
              ofNat_eq_of_toNat (b := b1) (by omega), ofNat_eq_of_toNat (b := b2) (by omega),
              ofNat_eq_of_toNat (b := b3) (by omega)]
            rfl
    · simp at h

theorem utf8_ne_nil (c : Nat) : utf8 c ≠ [] := by
  unfold utf8; repeat' split
  all_goals simp

theorem utf8Go_sound : ∀ (n : Nat) (bs : Bytes) (cps : List Nat), bs.length ≤ n → utf8Go 0 0 0 bs = some cps →
    (∀ c ∈ cps, Scalar c) ∧ bs = cps.flatMap utf8 := by
  intro n
  induction n with
  | zero =>
    intro bs cps hl h
    have : bs = [] := List.length_eq_zero_iff.1 (by omega)
    subst this
    simp [utf8Go] at h; subst h; simp
  | succ n ih =>
    intro bs cps hl h
    by_cases hne : bs = []
    · subst hne; simp [utf8Go] at h; subst h; simp
    · obtain ⟨c, rest, cps', rfl, hs, rfl, h2⟩ := utf8Go_inv h hne
      have := List.length_pos_iff.2 (utf8_ne_nil c)
      have := ih rest cps' (by simp at hl; omega) h2
      refine ⟨?_, ?_⟩
      · intro d hd
        simp only [List.mem_cons] at hd
        rcases hd with rfl | hd
        · exact hs
        · exact this.1 d hd
      · rw [List.flatMap_cons, ← this.2]

theorem and_ffff (c : Nat) : c &&& 0xFFFF = c % 0x10000 := Nat.and_two_pow_sub_one_eq_mod c 16

theorem codepointOk_iff (c : Nat) : codepointOk c = true ↔ ¬ Disallowed c := by
  unfold codepointOk Disallowed
  rw [and_ffff]
  repeat' split
  all_goals simp
  all_goals omega

theorem validUtf8Text_iff (t : Bytes) : validUtf8Text t = true ↔ Text t := by
  unfold validUtf8Text
  constructor
  · intro h
    cases hg : utf8Go 0 0 0 t with
    | none => simp [hg] at h
    | some cps =>
      simp only [hg, List.all_eq_true] at h
      have := utf8Go_sound t.length t cps (Nat.le_refl _) hg
      exact ⟨cps, fun c hc => ⟨this.1 c hc, (codepointOk_iff c).1 (h c hc)⟩, this.2⟩
  · rintro ⟨cps, h, rfl⟩
    rw [utf8Go_flatMap cps (fun c hc => (h c hc).1)]
    simp only [List.all_eq_true]
    exact fun c hc => (codepointOk_iff c).2 (h c hc).2

theorem text_no_nul {t : Bytes} (h : Text t) : (0 : UInt8) ∉ t := by
  obtain ⟨cps, h, rfl⟩ := h
  simp only [List.mem_flatMap, not_exists, not_and]
  intro c hc
  obtain ⟨⟨h1, h2⟩, h3⟩ := h c hc
  have h0 : 0x20 ≤ c := by unfold Disallowed at h3; omega
  have key : ∀ n : Nat, 0 < n → n < 256 → (0 : UInt8) ≠ UInt8.ofNat n := by
    intro n a b e
    have := congrArg UInt8.toNat e
    rw [toNat_ofNat_lt b] at this
    simp at this; omega
  unfold utf8
  repeat' split
  all_goals simp only [List.mem_cons, List.not_mem_nil, or_false, not_or]
  · exact key _ (by omega) (by omega)
  · exact ⟨key _ (by omega) (by omega), key _ (by omega) (by omega)⟩
  · exact ⟨key _ (by omega) (by omega), key _ (by omega) (by omega), key _ (by omega) (by omega)⟩
  · exact ⟨key _ (by omega) (by omega), key _ (by omega) (by omega), key _ (by omega) (by omega),
      key _ (by omega) (by omega)⟩

end Mqtt
