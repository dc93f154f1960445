import Verif.Spec.View5
import Verif.Lemmas.Encoder5

/-! The specification's readers applied to what encoding steps write. -/
namespace Mqtt.V5
open Mqtt.Spec5

theorem byte_ofNat (n : Nat) (h : n < 256) (r : Bytes) : byte (UInt8.ofNat n :: r) = some (n, r) := by
  simp only [byte, UInt8.toNat_ofNat']
  rw [Nat.mod_eq_of_lt (by omega)]

theorem byte_cons (b : UInt8) (r : Bytes) : byte (b :: r) = some (b.toNat, r) := rfl

theorem two_be16 (n : Nat) (h : n < 65536) (r : Bytes) : two (be16 (UInt16.ofNat n) ++ r) = some (n, r) := by
  simp only [be16, List.cons_append, List.nil_append, two, UInt8.toNat_ofNat', UInt16.toNat_ofNat']
  congr 2
  omega

theorem four_be32 (n : Nat) (h : n < 4294967296) (r : Bytes) :
    four (be32 (UInt32.ofNat n) ++ r) = some (n, r) := by
  simp only [be32, List.cons_append, List.nil_append, four, UInt8.toNat_ofNat', UInt32.toNat_ofNat']
  congr 2
  omega

theorem vbiOf_vliBytes (k n : Nat) (h : n < 128 ^ (k + 1)) (r : Bytes) :
    vbiOf (k + 1) (vliBytes n ++ r) = some (n, r) := by
  induction k generalizing n with
  | zero =>
    rw [vliBytes, if_pos (by omega)]
    simp only [List.cons_append, List.nil_append, vbiOf, UInt8.toNat_ofNat']
    rw [if_pos (by omega)]
    congr 2
    omega
  | succ k ih =>
    rw [vliBytes]
    by_cases hn : n / 128 = 0
    · rw [if_pos hn]
      simp only [List.cons_append, List.nil_append, vbiOf, UInt8.toNat_ofNat']
      rw [if_pos (by omega)]
      congr 2
      omega
    · rw [if_neg hn]
      simp only [List.cons_append, vbiOf]
      have h1 : (UInt8.ofNat (n % 128) ||| 128).toNat = n % 128 + 128 := or128 _ (by omega)
      have h2 : n / 128 < 128 ^ (k + 1) := by
        rw [Nat.pow_succ] at h
        exact Nat.div_lt_of_lt_mul (by omega)
      rw [if_neg (by omega), ih (n / 128) h2, h1]
      simp only
      congr 2
      omega

theorem vbi_vliBytes (n : Nat) (h : n ≤ maxVli) (r : Bytes) : vbi (vliBytes n ++ r) = some (n, r) :=
  vbiOf_vliBytes 3 n (by simp; omega) r

theorem raw_append (s r : Bytes) : raw s.length (s ++ r) = some (s, r) := by
  simp [raw]

theorem text_prefixed (c : Bytes) (h : c.length < 65536) (r : Bytes) :
    text (be16 (UInt16.ofNat c.length) ++ (c ++ r)) = some (c, r) := by
  unfold text
  rw [two_be16 _ h]
  exact raw_append c r

theorem text_steps (c : Bytes) (h : c.length < 65536) (r : Bytes) :
    text (stepsBytes (prefixed c) ++ r) = some (c, r) := by
  simpa [prefixed, stepU16, Step.bytes] using text_prefixed c h r

/-! ### Properties -/

/-- `seg` is read as the properties `ps`, whatever follows. -/
def Reads (seg : Bytes) (ps : List Property) : Prop :=
  ps.length ≤ seg.length ∧
  ∀ n r rs, propertiesOf n r = some rs → propertiesOf (n + ps.length) (seg ++ r) = some (ps ++ rs)

theorem Reads.nil : Reads [] [] := ⟨by simp, by intro n r rs h; simpa using h⟩

theorem Reads.append {a b : Bytes} {p q : List Property} (h1 : Reads a p) (h2 : Reads b q) :
    Reads (a ++ b) (p ++ q) := by
  refine ⟨by have := h1.1; have := h2.1; simp; omega, ?_⟩
  intro n r rs h
  have := h1.2 _ _ _ (h2.2 n r rs h)
  rw [List.length_append, List.append_assoc, List.append_assoc,
    show n + (p.length + q.length) = n + q.length + p.length by omega]
  exact this

theorem propertiesOf_cons (n : Nat) (b : UInt8) (r : Bytes) :
    propertiesOf (n + 1) (b :: r) = (do
      let (p, r) ← property (b :: r)
      let ps ← propertiesOf n r
      some (p :: ps)) := by
  rw [propertiesOf]; simp

theorem Reads.one {b : UInt8} {seg : Bytes} {p : Property}
    (h : ∀ r, property (b :: (seg ++ r)) = some (p, r)) : Reads (b :: seg) [p] := by
  refine ⟨by simp, ?_⟩
  intro n r rs hr
  show propertiesOf (n + 1) (b :: (seg ++ r)) = _
  rw [propertiesOf_cons]
  rw [h r]
  simp only [Option.bind_eq_bind, Option.bind_some, hr]
  rfl

theorem propertiesOf_mono {n m : Nat} {bs : Bytes} {ps : List Property} (h : propertiesOf n bs = some ps)
    (hm : n ≤ m) : propertiesOf m bs = some ps := by
  induction n generalizing m bs ps with
  | zero =>
    cases bs with
    | nil => simp [propertiesOf] at h ⊢; exact h
    | cons b r => simp [propertiesOf] at h
  | succ n ih =>
    cases bs with
    | nil => simp [propertiesOf] at h ⊢; exact h
    | cons b r =>
      obtain ⟨m, rfl⟩ : ∃ k, m = k + 1 := ⟨m - 1, by omega⟩
      rw [propertiesOf_cons] at h ⊢
      cases hp : property (b :: r) with
      | none => rw [hp] at h; simp at h
      | some x =>
        rw [hp] at h
        simp only [Option.bind_eq_bind, Option.bind_some] at h ⊢
        cases hq : propertiesOf n x.2 with
        | none => rw [hq] at h; simp at h
        | some qs =>
          rw [hq] at h
          rw [ih hq (by omega)]
          exact h

theorem Reads.all {seg : Bytes} {ps : List Property} (h : Reads seg ps) :
    propertiesOf seg.length seg = some ps := by
  have := h.2 0 [] [] (by simp [propertiesOf])
  simp at this
  exact propertiesOf_mono this h.1

theorem properties_section {seg : Bytes} {ps : List Property} (h : Reads seg ps) (hl : seg.length ≤ maxVli)
    (r : Bytes) : properties (vliBytes seg.length ++ (seg ++ r)) = some (ps, r) := by
  unfold properties
  rw [vbi_vliBytes _ hl]
  simp only [Option.bind_eq_bind, Option.bind_some, raw_append, h.all]

theorem property_cons {id : Nat} {k : Kind} {v : Value} {r rest : Bytes} (hid : id < 256)
    (hk : kind id = some k) (hv : value k r = some (v, rest)) :
    property (UInt8.ofNat id :: r) = some (⟨id, v⟩, rest) := by
  unfold property
  rw [byte_ofNat id hid]
  simp [hk, hv]

theorem reads_optU8 (id : Nat) (o : Option Nat) (hid : id < 256) (hk : kind id = some .byte)
    (ho : ∀ n, o = some n → n < 256) : Reads (stepsBytes (optU8 id o)) (optNum id o) := by
  cases o with
  | none => exact Reads.nil
  | some n =>
    apply Reads.one
    intro r
    exact property_cons hid hk (by simp [value, Step.bytes, byte_ofNat n (ho n rfl), stepU8])

theorem reads_optU16 (id : Nat) (o : Option Nat) (hid : id < 256) (hk : kind id = some .two)
    (ho : ∀ n, o = some n → n < 65536) : Reads (stepsBytes (optU16 id o)) (optNum id o) := by
  cases o with
  | none => exact Reads.nil
  | some n =>
    have e : stepsBytes (optU16 id (some n)) = UInt8.ofNat id :: be16 (UInt16.ofNat n) := by
      simp [optU16, stepU8, stepU16, Step.bytes]
    rw [e]
    apply Reads.one
    intro r
    refine property_cons hid hk ?_
    simp only [value]
    rw [two_be16 n (ho n rfl)]; rfl

theorem reads_optU32 (id : Nat) (o : Option Nat) (hid : id < 256) (hk : kind id = some .four)
    (ho : ∀ n, o = some n → n < 4294967296) : Reads (stepsBytes (optU32 id o)) (optNum id o) := by
  cases o with
  | none => exact Reads.nil
  | some n =>
    have e : stepsBytes (optU32 id (some n)) = UInt8.ofNat id :: be32 (UInt32.ofNat n) := by
      simp [optU32, stepU8, stepU32, Step.bytes]
    rw [e]
    apply Reads.one
    intro r
    refine property_cons hid hk ?_
    simp only [value]
    rw [four_be32 n (ho n rfl)]; rfl

theorem reads_vli (id n : Nat) (hid : id < 256) (hk : kind id = some .vbi) (hn : n ≤ maxVli) :
    Reads (stepsBytes [stepU8 id, .vli n]) [⟨id, .num n⟩] := by
  have e : stepsBytes [stepU8 id, .vli n] = UInt8.ofNat id :: vliBytes n := by
    simp [stepU8, Step.bytes]
  rw [e]
  apply Reads.one
  intro r
  refine property_cons hid hk ?_
  simp only [value]
  rw [vbi_vliBytes n hn]; rfl

theorem reads_optCursor (id : Nat) (o : Option Bytes) (hid : id < 256) (hk : kind id = some .text)
    (ho : ∀ s, o = some s → s.length < 65536) : Reads (stepsBytes (optCursor id o)) (optText id o) := by
  cases o with
  | none => exact Reads.nil
  | some s =>
    have e : stepsBytes (optCursor id (some s)) =
        UInt8.ofNat id :: (be16 (UInt16.ofNat s.length) ++ s) := by
      simp [optCursor, stepU8, stepU16, Step.bytes]
    rw [e]
    apply Reads.one
    intro r
    refine property_cons hid hk ?_
    simp only [value, List.append_assoc]
    rw [text_prefixed s (ho s rfl)]; rfl

theorem reads_userProperties (ps : List UserProperty)
    (h : ∀ p ∈ ps, p.name.length < 65536 ∧ p.value.length < 65536) :
    Reads (stepsBytes (userPropertySteps ps)) (userProps ps) := by
  induction ps with
  | nil => exact Reads.nil
  | cons p ps ih =>
    have ih := ih fun q hq => h q (List.mem_cons_of_mem _ hq)
    obtain ⟨h1, h2⟩ := h p (by simp)
    have hone : Reads (stepsBytes (userPropertySteps [p])) (userProps [p]) := by
      have e : stepsBytes (userPropertySteps [p]) =
          UInt8.ofNat 38 :: (be16 (UInt16.ofNat p.name.length) ++ (p.name ++
            (be16 (UInt16.ofNat p.value.length) ++ p.value))) := by
        simp [userPropertySteps, stepU8, stepU16, Step.bytes]
      rw [e]
      apply Reads.one
      intro r
      refine property_cons (by decide) (k := .pair) rfl ?_
      simp only [value, List.append_assoc]
      simp only [text_prefixed _ h1, text_prefixed _ h2, Option.bind_eq_bind, Option.bind_some]
    have := hone.append ih
    simpa [userPropertySteps, userProps, stepsBytes] using this

/-! Lengths of step bytes. -/

@[simp] theorem optU8_length (id : Nat) (o : Option Nat) : (stepsBytes (optU8 id o)).length = optU8Len o := by
  cases o <;> rfl

@[simp] theorem optU16_length (id : Nat) (o : Option Nat) :
    (stepsBytes (optU16 id o)).length = optU16Len o := by
  cases o <;> rfl

@[simp] theorem optU32_length (id : Nat) (o : Option Nat) :
    (stepsBytes (optU32 id o)).length = optU32Len o := by
  cases o <;> rfl

@[simp] theorem optCursor_length (id : Nat) (o : Option Bytes) :
    (stepsBytes (optCursor id o)).length = optCursorLen o := by
  cases o with
  | none => rfl
  | some c => simp [optCursor, optCursorLen, Step.bytes, stepU8, stepU16]; omega

@[simp] theorem prefixed_length (c : Bytes) : (stepsBytes (prefixed c)).length = 2 + c.length := by
  simp [prefixed, Step.bytes, stepU16]

theorem optPrefixed_length (o : Option Bytes) :
    (stepsBytes (optPrefixed o)).length = optPrefixedLen o := by
  cases o with
  | none => rfl
  | some c => simp only [optPrefixed, prefixed_length, optPrefixedLen]; omega

theorem userPropertiesLen_cons (p : UserProperty) (ps : List UserProperty) :
    userPropertiesLen (p :: ps) = 5 + p.name.length + p.value.length + userPropertiesLen ps := by
  unfold userPropertiesLen
  have gen : ∀ (qs : List UserProperty) (a : Nat),
      qs.foldl (fun n p => n + p.name.length + p.value.length) a =
        a + qs.foldl (fun n p => n + p.name.length + p.value.length) 0 := by
    intro qs
    induction qs with
    | nil => simp
    | cons q qs ih =>
      intro a
      rw [List.foldl_cons, List.foldl_cons, ih, ih (0 + q.name.length + q.value.length)]; omega
  rw [List.foldl_cons, gen, gen ps (5 * ps.length), List.length_cons]; omega

@[simp] theorem userPropertySteps_length (ps : List UserProperty) :
    (stepsBytes (userPropertySteps ps)).length = userPropertiesLen ps := by
  induction ps with
  | nil => rfl
  | cons p ps ih =>
    rw [userPropertiesLen_cons, ← ih]
    simp [userPropertySteps, stepsBytes, Step.bytes, stepU16, stepU8]
    omega

theorem foldl_length_filters (fs : List SubscriptionView) (a : Nat) :
    fs.foldl (fun n s => n + s.topicFilter.length) a + 3 * fs.length =
      a + (stepsBytes (fs.flatMap fun s => prefixed s.topicFilter ++ [.u8 (subscriptionFlags s)])).length := by
  induction fs generalizing a with
  | nil => simp
  | cons f fs ih =>
    rw [List.foldl_cons, List.flatMap_cons, stepsBytes_append, List.length_append, List.length_cons]
    have := ih (a + f.topicFilter.length)
    simp only [stepsBytes_append, List.length_append, prefixed_length, stepsBytes_cons, stepsBytes_nil, Step.bytes,
      List.append_nil, List.length_cons, List.length_nil]
    omega

theorem foldl_length_texts (fs : List Bytes) (a : Nat) :
    fs.foldl (fun n f => n + f.length) a + 2 * fs.length = a + (stepsBytes (fs.flatMap prefixed)).length := by
  induction fs generalizing a with
  | nil => simp
  | cons f fs ih =>
    rw [List.foldl_cons, List.flatMap_cons, stepsBytes_append, List.length_append, List.length_cons]
    have := ih (a + f.length)
    simp only [prefixed_length]
    omega

theorem subscriptionIds_length (ids : List Nat) (n : Nat) (h : subscriptionIdsLen ids = some n) :
    (stepsBytes (ids.flatMap fun i => [stepU8 11, .vli i])).length = n ∧ ∀ i ∈ ids, i ≤ maxVli := by
  induction ids generalizing n with
  | nil => simp [subscriptionIdsLen] at h; subst h; simp
  | cons i ids ih =>
    simp only [subscriptionIdsLen] at h
    cases h1 : vliSize i with
    | none => simp [h1] at h
    | some k =>
      cases h2 : subscriptionIdsLen ids with
      | none => simp [h1, h2] at h
      | some m =>
        simp [h1, h2] at h
        obtain ⟨ha, hb⟩ := ih m h2
        obtain ⟨hc, hd⟩ := vliSize_some h1
        refine ⟨?_, ?_⟩
        · rw [List.flatMap_cons, stepsBytes_append, List.length_append, ha]
          simp [Step.bytes, stepU8, ← hd]; omega
        · intro j hj
          rcases List.mem_cons.mp hj with rfl | hj
          · exact hc
          · exact hb j hj

theorem reads_subscriptionIds (ids : List Nat) (h : ∀ i ∈ ids, i ≤ maxVli) :
    Reads (stepsBytes (ids.flatMap fun i => [stepU8 11, .vli i])) (ids.map fun i => ⟨11, .num i⟩) := by
  induction ids with
  | nil => exact Reads.nil
  | cons i ids ih =>
    rw [List.flatMap_cons, stepsBytes_append, List.map_cons]
    exact (reads_vli 11 i (by decide) rfl (h i (by simp))).append (ih fun j hj => h j (List.mem_cons_of_mem _ hj))

/-- A packet of the announced length is read by the specification's frame reader. -/
theorem frame_steps (b1 : UInt8) (body : Bytes) (h : body.length ≤ maxVli) :
    frame (b1 :: (vliBytes body.length ++ body)) = some (b1.toNat / 16, b1.toNat % 16, body) := by
  unfold frame
  rw [byte_cons]
  simp only [Option.bind_eq_bind, Option.bind_some]
  rw [vbi_vliBytes _ h]
  simp

end Mqtt.V5
