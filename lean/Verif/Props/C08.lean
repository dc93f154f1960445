import Verif.Lemmas.Text

/-!
C08: `aws_mqtt_is_valid_topic` and `aws_mqtt_is_valid_topic_filter` accept exactly the MQTT grammar.
-/
namespace Mqtt.Props
open Mqtt Mqtt.Spec

theorem parts_topic (ls : List Bytes) :
    validTopicParts false false ls = true ↔ ∀ l ∈ ls, (43 : UInt8) ∉ l ∧ (35 : UInt8) ∉ l := by
  induction ls with
  | nil => simp [validTopicParts]
  | cons l ls ih =>
    rw [validTopicParts]
    simp only [Bool.false_eq_true, if_false]
    split
    · next h => rw [ih]; simp [List.length_eq_zero_iff.1 h]
    · split
      · next h => simp [h.1]
      · next h =>
        split
        · next h2 => simp [h2]
        · next h2 => rw [ih]; simp_all

theorem parts_sawHash (b : Bool) (ls : List Bytes) : validTopicParts b true ls = true ↔ ls = [] := by
  cases ls <;> simp [validTopicParts]

theorem single_of_mem {c : UInt8} {l : Bytes} (h : c ∈ l) (hl : ¬ l.length > 1) : l = [c] := by
  match l with
  | [] => simp at h
  | [x] => simp at h; simp [h]
  | x :: y :: z => simp at hl

theorem parts_filter (ls : List Bytes) :
    validTopicParts true false ls = true ↔ (∀ l ∈ ls, (43 : UInt8) ∈ l → l = [43]) ∧
      ∀ pre l post, ls = pre ++ l :: post → (35 : UInt8) ∈ l → l = [35] ∧ post = [] := by
  induction ls with
  | nil => simp [validTopicParts]
  | cons l ls ih =>
    have step : (∀ pre m post, l :: ls = pre ++ m :: post → (35 : UInt8) ∈ m → m = [35] ∧ post = []) ↔
        ((35 : UInt8) ∈ l → l = [35] ∧ ls = []) ∧
        (∀ pre m post, ls = pre ++ m :: post → (35 : UInt8) ∈ m → m = [35] ∧ post = []) := by
      constructor
      · intro h
        exact ⟨h [] l ls rfl, fun pre m post e => h (l :: pre) m post (by simp [e])⟩
      · rintro ⟨h1, h2⟩ pre m post e
        cases pre with
        | nil => simp at e; obtain ⟨rfl, rfl⟩ := e; exact h1
        | cons p pre => simp at e; exact h2 pre m post e.2
    rw [validTopicParts, step]
    simp only [Bool.false_eq_true, if_false, Bool.not_true, false_or]
    split
    · next h => rw [ih]; simp [List.length_eq_zero_iff.1 h]
    · split
      · next h =>
        simp only [Bool.false_eq_true, List.mem_cons, forall_eq_or_imp, false_iff, not_and]
        intro h2; have := h2.1 h.1; rw [this] at h; simp at h
      · next h =>
        have hp : ((43 : UInt8) ∈ l → l = [43]) := fun hm => single_of_mem hm (fun h3 => h ⟨hm, h3⟩)
        split
        · next h2 =>
          split
          · next h3 =>
            simp only [Bool.false_eq_true, false_iff, not_and]
            intro _ h5; have := (h5 h2).1; rw [this] at h3; simp at h3
          · next h3 =>
            rw [parts_sawHash]
            have hl := single_of_mem h2 h3
            subst hl
            constructor
            · rintro rfl
              simp
            · intro h4; exact (h4.2.1 h2).2
        · next h2 =>
          rw [ih]
          simp only [List.mem_cons, forall_eq_or_imp]
          constructor
          · rintro ⟨a, b⟩; exact ⟨⟨hp, a⟩, fun e => absurd e h2, b⟩
          · rintro ⟨⟨_, a⟩, _, b⟩; exact ⟨a, b⟩

theorem C08_topic (t : Bytes) : isValidTopic t = true ↔ TopicName t := by
  unfold isValidTopic isValidTopicAux TopicName
  rw [← validUtf8Text_iff]
  split
  · next h => simp only [Bool.false_eq_true, false_iff]; omega
  · split
    · next h => simp_all
    · next h =>
      have hv : validUtf8Text t = true := by simpa using h
      rw [if_neg (text_no_nul ((validUtf8Text_iff t).1 hv))]
      split
      · simp only [Bool.false_eq_true, false_iff]; omega
      · rw [parts_topic, mem_of_mem_split (c := 43) (by decide), mem_of_mem_split (c := 35) (by decide)]
        simp only [hv, true_and, not_exists, not_and]
        constructor
        · intro h2; exact ⟨by omega, by omega, fun l hl => (h2 l hl).1, fun l hl => (h2 l hl).2⟩
        · rintro ⟨_, _, a, b⟩ l hl; exact ⟨a l hl, b l hl⟩

theorem C08_filter (t : Bytes) : isValidTopicFilter t = true ↔ TopicFilter t := by
  unfold isValidTopicFilter isValidTopicAux TopicFilter
  rw [← validUtf8Text_iff]
  have hex : ∀ P : List Bytes → Prop, (∃ ls, Levels t ls ∧ P ls) ↔ P (split 47 t) := by
    intro P
    constructor
    · rintro ⟨ls, h, hp⟩; rw [split_of_levels h]; exact hp
    · intro hp; exact ⟨_, split_levels t, hp⟩
  rw [hex]
  split
  · next h => simp only [Bool.false_eq_true, false_iff]; omega
  · split
    · next h => simp_all
    · next h =>
      have hv : validUtf8Text t = true := by simpa using h
      rw [if_neg (text_no_nul ((validUtf8Text_iff t).1 hv))]
      split
      · simp only [Bool.false_eq_true, false_iff]; omega
      · rw [parts_filter]
        simp only [hv, true_and]
        constructor
        · intro h2; exact ⟨by omega, by omega, h2⟩
        · rintro ⟨_, _, h2⟩; exact h2

/-- A topic is always also a legal filter; the levels of a text are unique. -/
theorem C08_topic_is_filter (t : Bytes) (h : TopicName t) : TopicFilter t := by
  obtain ⟨h1, h2, h3, h4, h5⟩ := h
  refine ⟨h1, h2, h3, split 47 t, split_levels t, ?_, ?_⟩
  · intro l hl hm; exact absurd ((mem_of_mem_split (by decide)).2 ⟨l, hl, hm⟩) h4
  · intro pre l post e hm
    exact absurd ((mem_of_mem_split (by decide)).2 ⟨l, by rw [e]; simp, hm⟩) h5

theorem C08_levels_unique {t : Bytes} {a b : List Bytes} (ha : Levels t a) (hb : Levels t b) : a = b := by
  rw [← split_of_levels ha, ← split_of_levels hb]

/-- `sensors/é/+/#` is a filter and not a topic; `a/#/b` and `a+` are neither; `/` is both. -/
example : isValidTopicFilter [115, 47, 0xC3, 0xA9, 47, 43, 47, 35] = true ∧
    isValidTopic [115, 47, 0xC3, 0xA9, 47, 43, 47, 35] = false ∧
    isValidTopicFilter [97, 47, 35, 47, 98] = false ∧ isValidTopicFilter [97, 43] = false ∧
    isValidTopic [47] = true ∧ isValidTopicFilter [47] = true ∧ isValidTopic [0xC0, 0x80] = false := by
  decide

end Mqtt.Props
