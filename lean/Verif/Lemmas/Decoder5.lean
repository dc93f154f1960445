import Verif.Spec.Server5
import Verif.Lemmas.Vli5
import Verif.Lemmas.Wire5

namespace Mqtt.V5
open Mqtt Mqtt.Spec5

/-! ### Fields -/

theorem getU8_eq (cur : Bytes) : getU8 cur = byte cur := by
  cases cur <;> rfl

theorem getU16_eq (cur : Bytes) : getU16 cur = two cur := by
  match cur with
  | [] => rfl
  | [_] => rfl
  | a :: b :: r =>
    have ha := a.toNat_lt; have hb := b.toNat_lt
    simp only [getU16, readBe16, two, Option.map_some, UInt16.toNat_ofNat']
    congr 2
    omega

theorem getU32_eq (cur : Bytes) : getU32 cur = four cur := by
  match cur with
  | [] => rfl
  | [_] => rfl
  | [_, _] => rfl
  | [_, _, _] => rfl
  | a :: b :: c :: d :: r =>
    have ha := a.toNat_lt; have hb := b.toNat_lt; have hc := c.toNat_lt; have hd := d.toNat_lt
    simp only [getU32, readBe32, four, Option.map_some, UInt32.toNat_ofNat']
    congr 2
    omega

theorem vbiOf_loop (k shift value : Nat) (hv : value < 2 ^ shift) (cur : Bytes) :
    (decodeVliLoop k shift value cur).toOption = (vbiOf k cur).map fun x => (value + 2 ^ shift * x.1, x.2) := by
  induction k generalizing shift value cur with
  | zero => rfl
  | succ k ih =>
    cases cur with
    | nil => rfl
    | cons b r =>
      have hb := b.toNat_lt
      have h127 := and127 b
      have hz := and128 b
      have hor : value ||| ((b &&& 0x7F).toNat <<< shift) = value + b.toNat % 128 * 2 ^ shift := by
        rw [h127, or_shift _ _ _ hv]
      simp only [decodeVliLoop, vbiOf]
      rw [hor]
      by_cases hlt : b.toNat < 128
      · rw [if_pos (hz.2 hlt), if_pos hlt]
        simp [Nat.mod_eq_of_lt hlt, Nat.mul_comm, VliResult.toOption]
      · rw [if_neg (fun h => hlt (hz.1 h)), if_neg hlt]
        have hv' : value + b.toNat % 128 * 2 ^ shift < 2 ^ (shift + 7) := by
          have h1 : b.toNat % 128 ≤ 127 := by omega
          have h2 : b.toNat % 128 * 2 ^ shift ≤ 127 * 2 ^ shift := Nat.mul_le_mul_right _ h1
          have h3 : 2 ^ (shift + 7) = 128 * 2 ^ shift := by rw [Nat.pow_add, Nat.mul_comm]
          rw [h3]; omega
        rw [ih _ _ hv']
        cases vbiOf k r with
        | none => rfl
        | some x =>
          have h3 : 2 ^ (shift + 7) = 2 ^ shift * 128 := by rw [Nat.pow_add]
          have e1 : b.toNat % 128 = b.toNat - 128 := by omega
          simp only [Option.map_some, h3, e1]
          congr 2
          rw [Nat.mul_add, Nat.mul_assoc, Nat.mul_comm (b.toNat - 128), Nat.add_assoc]

theorem getVli_eq (cur : Bytes) : getVli cur = vbi cur := by
  have := vbiOf_loop 4 0 0 (by simp) cur
  unfold getVli decodeVli vbi
  rw [this]
  cases vbiOf 4 cur <;> simp

theorem getPrefixed_eq (cur : Bytes) : getPrefixed cur = text cur := by
  unfold getPrefixed text
  rw [getU16_eq]
  cases two cur with
  | none => rfl
  | some x =>
    simp only [bind, Option.bind]
    unfold raw advance
    by_cases h : x.2.length < x.1
    · simp [h, Nat.not_le.mpr h]
    · have h' : x.1 ≤ x.2.length := Nat.le_of_not_lt h
      simp [h, h']

theorem getUserProperty_eq (cur : Bytes) :
    getUserProperty cur = (value .pair cur).map fun x => (pairOf x.1, x.2) := by
  unfold getUserProperty value
  rw [getPrefixed_eq]
  cases text cur with
  | none => rfl
  | some x =>
    simp only [bind, Option.bind]
    rw [getPrefixed_eq]
    cases text x.2 <;> rfl

/-! ### Properties: reading them, then applying them -/

def applyConnack (v : ConnackView) (p : Property) : Option ConnackView :=
  match p.id with
  | 17 => some { v with sessionExpiry := some (numOf p.value) }
  | 33 => some { v with receiveMaximum := some (numOf p.value) }
  | 36 => some { v with maximumQos := some (numOf p.value) }
  | 37 => some { v with retainAvailable := some (numOf p.value != 0) }
  | 39 => some { v with maximumPacketSize := some (numOf p.value) }
  | 18 => some { v with assignedClientId := some (textOf p.value) }
  | 34 => some { v with topicAliasMaximum := some (numOf p.value) }
  | 31 => some { v with reasonString := some (textOf p.value) }
  | 40 => some { v with wildcardSubscriptions := some (numOf p.value != 0) }
  | 41 => some { v with subscriptionIdentifiers := some (numOf p.value != 0) }
  | 42 => some { v with sharedSubscriptions := some (numOf p.value != 0) }
  | 19 => some { v with serverKeepAlive := some (numOf p.value) }
  | 26 => some { v with responseInformation := some (textOf p.value) }
  | 28 => some { v with serverReference := some (textOf p.value) }
  | 21 => some { v with authMethod := some (textOf p.value) }
  | 22 => some { v with authData := some (textOf p.value) }
  | 38 => some { v with userProperties := v.userProperties ++ [pairOf p.value] }
  | _ => none

def applyPublish (v : PublishView) (p : Property) : Option PublishView :=
  match p.id with
  | 1 => some { v with payloadFormat := some (numOf p.value) }
  | 2 => some { v with messageExpiry := some (numOf p.value) }
  | 35 => some { v with topicAlias := some (numOf p.value) }
  | 8 => some { v with responseTopic := some (textOf p.value) }
  | 9 => some { v with correlationData := some (textOf p.value) }
  | 38 => some { v with userProperties := v.userProperties ++ [pairOf p.value] }
  | 11 => some { v with subscriptionIdentifiers := v.subscriptionIdentifiers ++ [numOf p.value] }
  | 3 => some { v with contentType := some (textOf p.value) }
  | _ => none

def applyPuback (v : PubackView) (p : Property) : Option PubackView :=
  match p.id with
  | 31 => some { v with reasonString := some (textOf p.value) }
  | 38 => some { v with userProperties := v.userProperties ++ [pairOf p.value] }
  | _ => none

def applySuback (v : SubackView) (p : Property) : Option SubackView :=
  match p.id with
  | 31 => some { v with reasonString := some (textOf p.value) }
  | 38 => some { v with userProperties := v.userProperties ++ [pairOf p.value] }
  | _ => none

def applyDisconnect (v : DisconnectView) (p : Property) : Option DisconnectView :=
  match p.id with
  | 17 => some { v with sessionExpiry := some (numOf p.value) }
  | 28 => some { v with serverReference := some (textOf p.value) }
  | 31 => some { v with reasonString := some (textOf p.value) }
  | 38 => some { v with userProperties := v.userProperties ++ [pairOf p.value] }
  | _ => none

/-- A property reader is the grammar's reader followed by an update of the view. -/
def Factors {α : Type} (read : α → Bytes → Option (α × Bytes)) (apply : α → Property → Option α) : Prop :=
  ∀ v cur, read v cur = (property cur).bind fun x => (apply v x.1).map fun v => (v, x.2)

theorem property_known {t : UInt8} {id : Nat} {k : Kind} (ht : t.toNat = id) (hk : kind id = some k) (r : Bytes) :
    property (t :: r) = (value k r).map fun x => (⟨id, x.1⟩, x.2) := by
  unfold property
  rw [byte_cons, ht]
  simp only [bind, Option.bind, hk]
  cases value k r <;> rfl

theorem property_id {t : UInt8} {r rest : Bytes} {p : Property} (h : property (t :: r) = some (p, rest)) :
    p.id = t.toNat := by
  unfold property at h
  rw [byte_cons] at h
  simp only [bind, Option.bind] at h
  cases hk : kind t.toNat with
  | none => simp [hk] at h
  | some k =>
    simp only [hk] at h
    cases hv : value k r with
    | none => simp [hv] at h
    | some x => simp only [hv, Option.some.injEq, Prod.mk.injEq] at h; rw [← h.1]

theorem raw_le {n : Nat} {bs s r : Bytes} (h : raw n bs = some (s, r)) : r.length ≤ bs.length := by
  unfold raw at h
  split at h
  · simp only [Option.some.injEq, Prod.mk.injEq] at h; rw [← h.2]; simp
  · simp at h

theorem two_le {bs r : Bytes} {n : Nat} (h : two bs = some (n, r)) : r.length ≤ bs.length := by
  match bs, h with
  | _ :: _ :: _, h => simp only [two, Option.some.injEq, Prod.mk.injEq] at h; rw [← h.2]; simp; omega

theorem text_le {bs s r : Bytes} (h : text bs = some (s, r)) : r.length ≤ bs.length := by
  unfold text at h
  cases h2 : two bs with
  | none => simp [h2] at h
  | some x =>
    simp only [h2, bind, Option.bind_some] at h
    have := two_le h2
    have := raw_le h
    omega

theorem value_le {k : Kind} {bs r : Bytes} {v : Value} (h : value k bs = some (v, r)) : r.length ≤ bs.length := by
  cases k with
  | byte => match bs, h with
    | _ :: _, h => simp [value, byte] at h; simp [← h.2]
  | two => match bs, h with
    | _ :: _ :: _, h => simp [value, two] at h; simp [← h.2]; omega
  | four => match bs, h with
    | _ :: _ :: _ :: _ :: _, h => simp [value, four] at h; simp [← h.2]; omega
  | vbi =>
    simp only [value, Option.map_eq_some_iff, Prod.mk.injEq, Prod.exists] at h
    obtain ⟨n, r', h, _, rfl⟩ := h
    rw [← getVli_eq] at h
    unfold getVli at h
    cases hd : decodeVli bs with
    | more => simp [hd, VliResult.toOption] at h
    | error => simp [hd, VliResult.toOption] at h
    | ok m q =>
      simp only [hd, VliResult.toOption, Option.some.injEq, Prod.mk.injEq] at h
      obtain ⟨vs, _, rfl⟩ := decodeVli_ok hd
      rw [← h.2]; simp
  | text =>
    simp only [value, Option.map_eq_some_iff, Prod.mk.injEq, Prod.exists] at h
    obtain ⟨s, r', h, _, rfl⟩ := h
    exact text_le h
  | pair =>
    simp only [value, bind, Option.bind] at h
    cases h1 : text bs with
    | none => simp [h1] at h
    | some x =>
      simp only [h1] at h
      cases h2 : text x.2 with
      | none => simp [h2] at h
      | some y =>
        simp only [h2, Option.some.injEq, Prod.mk.injEq] at h
        have := text_le h1
        have := text_le h2
        rw [← h.2]; omega

theorem property_shorter {t : UInt8} {r : Bytes} {x : Property × Bytes} (h : property (t :: r) = some x) :
    x.2.length < (t :: r).length := by
  unfold property at h
  rw [byte_cons] at h
  simp only [bind, Option.bind] at h
  cases hk : kind t.toNat with
  | none => simp [hk] at h
  | some k =>
    simp only [hk] at h
    cases hv : value k r with
    | none => simp [hv] at h
    | some y =>
      simp only [hv, Option.some.injEq] at h
      have := value_le hv
      rw [← h]; simp; omega

theorem factor_num {α : Type} {t : UInt8} {r : Bytes} {id : Nat} {k : Kind} {get : Option (Nat × Bytes)}
    {apply : Property → Option α} {f : Nat → α} (ht : t.toNat = id) (hk : kind id = some k)
    (hv : value k r = get.map fun x => (.num x.1, x.2)) (hf : ∀ n, apply ⟨id, .num n⟩ = some (f n)) :
    into get f = (property (t :: r)).bind fun x => (apply x.1).map fun v => (v, x.2) := by
  rw [property_known ht hk, hv]
  cases get with
  | none => rfl
  | some x => simp [into, hf]

theorem factor_text {α : Type} {t : UInt8} {r : Bytes} {id : Nat}
    {apply : Property → Option α} {f : Bytes → α} (ht : t.toNat = id) (hk : kind id = some .text)
    (hf : ∀ n, apply ⟨id, .text n⟩ = some (f n)) :
    into (getPrefixed r) f = (property (t :: r)).bind fun x => (apply x.1).map fun v => (v, x.2) := by
  rw [property_known ht hk, getPrefixed_eq]
  unfold value
  cases text r with
  | none => rfl
  | some x => simp [into, hf]

theorem factor_user {α : Type} {t : UInt8} {r : Bytes}
    {apply : Property → Option α} {f : UserProperty → α} (ht : t.toNat = 38)
    (hf : ∀ v, apply ⟨38, v⟩ = some (f (pairOf v))) :
    into (getUserProperty r) f = (property (t :: r)).bind fun x => (apply x.1).map fun v => (v, x.2) := by
  rw [property_known ht (k := .pair) rfl, getUserProperty_eq]
  cases value .pair r with
  | none => rfl
  | some x => simp [into, hf]

theorem factor_none {α : Type} {t : UInt8} {r : Bytes} {apply : Property → Option α}
    (hf : ∀ p : Property, p.id = t.toNat → apply p = none) :
    none = (property (t :: r)).bind fun x => (apply x.1).map fun v => (v, x.2) := by
  cases hp : property (t :: r) with
  | none => rfl
  | some x =>
    obtain ⟨p, rest⟩ := x
    simp [hf p (property_id hp)]

theorem value_byte (r : Bytes) : value .byte r = (getU8 r).map fun x => (.num x.1, x.2) := by
  rw [getU8_eq]; rfl
theorem value_two (r : Bytes) : value .two r = (getU16 r).map fun x => (.num x.1, x.2) := by
  rw [getU16_eq]; rfl
theorem value_four (r : Bytes) : value .four r = (getU32 r).map fun x => (.num x.1, x.2) := by
  rw [getU32_eq]; rfl
theorem value_vbi (r : Bytes) : value .vbi r = (getVli r).map fun x => (.num x.1, x.2) := by
  rw [getVli_eq]; rfl

theorem into_bool {β : Type} (r : Bytes) (f : Bool → β) : into (getBool r) f = into (getU8 r) fun n => f (n != 0) := by
  cases r <;> rfl

theorem property_nil : property [] = none := rfl

theorem connack_factors : Factors connackProperty applyConnack := by
  intro v cur
  cases cur with
  | nil => rfl
  | cons t r =>
    simp only [connackProperty]
    split
    · rename_i h; exact factor_num h rfl (value_four r) (fun _ => rfl)
    · rename_i h; exact factor_num h rfl (value_two r) (fun _ => rfl)
    · rename_i h; exact factor_num h rfl (value_byte r) (fun _ => rfl)
    · rename_i h; rw [into_bool]; exact factor_num h rfl (value_byte r) (fun _ => rfl)
    · rename_i h; exact factor_num h rfl (value_four r) (fun _ => rfl)
    · rename_i h; exact factor_text h rfl (fun _ => rfl)
    · rename_i h; exact factor_num h rfl (value_two r) (fun _ => rfl)
    · rename_i h; exact factor_text h rfl (fun _ => rfl)
    · rename_i h; rw [into_bool]; exact factor_num h rfl (value_byte r) (fun _ => rfl)
    · rename_i h; rw [into_bool]; exact factor_num h rfl (value_byte r) (fun _ => rfl)
    · rename_i h; rw [into_bool]; exact factor_num h rfl (value_byte r) (fun _ => rfl)
    · rename_i h; exact factor_num h rfl (value_two r) (fun _ => rfl)
    · rename_i h; exact factor_text h rfl (fun _ => rfl)
    · rename_i h; exact factor_text h rfl (fun _ => rfl)
    · rename_i h; exact factor_text h rfl (fun _ => rfl)
    · rename_i h; exact factor_text h rfl (fun _ => rfl)
    · rename_i h; exact factor_user h (fun _ => rfl)
    · apply factor_none
      intro p hp
      unfold applyConnack
      rw [hp]
      split <;> simp_all

theorem publish_factors : Factors publishProperty applyPublish := by
  intro v cur
  cases cur with
  | nil => rfl
  | cons t r =>
    simp only [publishProperty]
    split
    · rename_i h; exact factor_num h rfl (value_byte r) (fun _ => rfl)
    · rename_i h; exact factor_num h rfl (value_four r) (fun _ => rfl)
    · rename_i h; exact factor_num h rfl (value_two r) (fun _ => rfl)
    · rename_i h; exact factor_text h rfl (fun _ => rfl)
    · rename_i h; exact factor_text h rfl (fun _ => rfl)
    · rename_i h; exact factor_user h (fun _ => rfl)
    · rename_i h; exact factor_num h rfl (value_vbi r) (fun _ => rfl)
    · rename_i h; exact factor_text h rfl (fun _ => rfl)
    · apply factor_none
      intro p hp
      unfold applyPublish
      rw [hp]
      split <;> simp_all

theorem puback_factors : Factors pubackProperty applyPuback := by
  intro v cur
  cases cur with
  | nil => rfl
  | cons t r =>
    simp only [pubackProperty]
    split
    · rename_i h; exact factor_text h rfl (fun _ => rfl)
    · rename_i h; exact factor_user h (fun _ => rfl)
    · apply factor_none
      intro p hp
      unfold applyPuback
      rw [hp]
      split <;> simp_all

theorem suback_factors : Factors subackProperty applySuback := by
  intro v cur
  cases cur with
  | nil => rfl
  | cons t r =>
    simp only [subackProperty]
    split
    · rename_i h; exact factor_text h rfl (fun _ => rfl)
    · rename_i h; exact factor_user h (fun _ => rfl)
    · apply factor_none
      intro p hp
      unfold applySuback
      rw [hp]
      split <;> simp_all

theorem disconnect_factors : Factors disconnectProperty applyDisconnect := by
  intro v cur
  cases cur with
  | nil => rfl
  | cons t r =>
    simp only [disconnectProperty]
    split
    · rename_i h; exact factor_num h rfl (value_four r) (fun _ => rfl)
    · rename_i h; exact factor_text h rfl (fun _ => rfl)
    · rename_i h; exact factor_text h rfl (fun _ => rfl)
    · rename_i h; exact factor_user h (fun _ => rfl)
    · apply factor_none
      intro p hp
      unfold applyDisconnect
      rw [hp]
      split <;> simp_all

theorem loop_factors {α : Type} {read : α → Bytes → Option (α × Bytes)} {apply : α → Property → Option α}
    (hf : Factors read apply) (n : Nat) (v : α) (cur : Bytes) :
    propertyLoop read n v cur = (propertiesOf n cur).bind fun ps => ps.foldlM apply v := by
  induction n generalizing v cur with
  | zero => cases cur <;> rfl
  | succ n ih =>
    cases cur with
    | nil => rfl
    | cons b bs =>
      rw [propertiesOf_cons]
      simp only [propertyLoop, hf v (b :: bs)]
      cases property (b :: bs) with
      | none => rfl
      | some x =>
        simp only [Option.bind_some, bind]
        cases ha : apply v x.1 with
        | none =>
          cases propertiesOf n x.2 with
          | none => rfl
          | some ps => simp [ha]
        | some v' =>
          simp only [Option.map_some]
          rw [ih]
          cases propertiesOf n x.2 with
          | none => rfl
          | some ps => simp [ha]

/-- The loop never stops because of the bound. -/
theorem propertyLoop_bound {α : Type} {read : α → Bytes → Option (α × Bytes)} {apply : α → Property → Option α}
    (hf : Factors read apply) (n : Nat) (v : α) (cur : Bytes) (hn : cur.length ≤ n) :
    propertyLoop read n v cur = readProperties read v cur := by
  unfold readProperties
  induction hl : cur.length using Nat.strongRecOn generalizing cur v n with
  | ind k ih =>
    cases cur with
    | nil => cases n <;> cases k <;> rfl
    | cons b bs =>
      cases n with
      | zero => simp at hn
      | succ n =>
        cases k with
        | zero => simp at hl
        | succ k =>
          simp only [propertyLoop]
          cases hr : read v (b :: bs) with
          | none => rfl
          | some x =>
            simp only
            have hlt : x.2.length < (b :: bs).length := by
              rw [hf] at hr
              cases hp : property (b :: bs) with
              | none => simp [hp] at hr
              | some y =>
                simp only [hp, Option.bind_some] at hr
                cases ha : apply v y.1 with
                | none => simp [ha] at hr
                | some v' =>
                  simp only [ha, Option.map_some, Option.some.injEq] at hr
                  rw [← hr]
                  exact property_shorter hp
            simp only [List.length_cons] at hl hn hlt
            rw [ih x.2.length (by omega) n x.1 x.2 (by omega) rfl, ih x.2.length (by omega) k x.1 x.2 (by omega) rfl]

/-! ### Applying properties: the last one of each kind counts -/

def lastOf (id : Nat) (ps : List Property) : Option Value := the id ps.reverse

theorem lastOf_nil (id : Nat) : lastOf id [] = none := rfl

theorem lastOf_snoc (id : Nat) (ps : List Property) (p : Property) :
    lastOf id (ps ++ [p]) = if p.id = id then some p.value else lastOf id ps := by
  unfold lastOf the
  rw [List.reverse_append]
  simp only [List.reverse_cons, List.reverse_nil, List.nil_append, List.cons_append, List.find?_cons]
  by_cases h : p.id = id
  · simp [h]
  · have hb : (p.id == id) = false := by simp [h]
    rw [hb, if_neg h]

theorem users_nil : users [] = [] := rfl
theorem users_snoc (ps : List Property) (p : Property) :
    users (ps ++ [p]) = if p.id = 38 then users ps ++ [pairOf p.value] else users ps := by
  unfold users
  by_cases h : p.id = 38 <;> simp [h, List.filter_append]

theorem subIds_nil : subIds [] = [] := rfl
theorem subIds_snoc (ps : List Property) (p : Property) :
    subIds (ps ++ [p]) = if p.id = 11 then subIds ps ++ [numOf p.value] else subIds ps := by
  unfold subIds
  by_cases h : p.id = 11 <;> simp [h, List.filter_append]

def connackOf (present : Bool) (reason : Nat) (ps : List Property) : ConnackView :=
  { sessionPresent := present, reasonCode := reason, sessionExpiry := (lastOf 17 ps).map numOf,
    receiveMaximum := (lastOf 33 ps).map numOf,
    maximumQos := (lastOf 36 ps).map numOf, retainAvailable := (lastOf 37 ps).map fun v => numOf v != 0,
    maximumPacketSize := (lastOf 39 ps).map numOf,
    assignedClientId := (lastOf 18 ps).map textOf, topicAliasMaximum := (lastOf 34 ps).map numOf,
    reasonString := (lastOf 31 ps).map textOf,
    userProperties := users ps, wildcardSubscriptions := (lastOf 40 ps).map fun v => numOf v != 0,
    subscriptionIdentifiers := (lastOf 41 ps).map fun v => numOf v != 0,
    sharedSubscriptions := (lastOf 42 ps).map fun v => numOf v != 0,
    serverKeepAlive := (lastOf 19 ps).map numOf, responseInformation := (lastOf 26 ps).map textOf,
    serverReference := (lastOf 28 ps).map textOf, authMethod := (lastOf 21 ps).map textOf,
    authData := (lastOf 22 ps).map textOf }

theorem snoc_induction {P : List Property → Prop} (h0 : P []) (hs : ∀ ps p, P ps → P (ps ++ [p]))
    (ps : List Property) : P ps := by
  have : ∀ qs : List Property, P qs.reverse := by
    intro qs
    induction qs with
    | nil => exact h0
    | cons q qs ih => rw [List.reverse_cons]; exact hs _ _ ih
  simpa using this ps.reverse

theorem fold_connack (present : Bool) (reason : Nat) (ps : List Property) (h : ∀ p ∈ ps, p.id ∈ connackIds) :
    ps.foldlM applyConnack { sessionPresent := present, reasonCode := reason } =
      some (connackOf present reason ps) := by
  induction ps using snoc_induction with
  | h0 => rfl
  | hs ps p ih =>
    rw [List.foldlM_append, ih (fun q hq => h q (by simp [hq]))]
    have hp := h p (by simp)
    obtain ⟨id, val⟩ := p
    simp only [connackIds, List.mem_cons, List.not_mem_nil, or_false] at hp
    simp only [List.foldlM_cons, List.foldlM_nil, bind, Option.bind_some, connackOf, lastOf_snoc, users_snoc]
    rcases hp with rfl | rfl | rfl | rfl | rfl | rfl | rfl | rfl | rfl | rfl | rfl | rfl | rfl | rfl | rfl | rfl | rfl <;>
      rfl

def publishOf (v : PublishView) (ps : List Property) : PublishView :=
  { v with
    payloadFormat := (lastOf 1 ps).map numOf, messageExpiry := (lastOf 2 ps).map numOf,
    topicAlias := (lastOf 35 ps).map numOf, responseTopic := (lastOf 8 ps).map textOf,
    correlationData := (lastOf 9 ps).map textOf, subscriptionIdentifiers := subIds ps,
    contentType := (lastOf 3 ps).map textOf, userProperties := users ps }

theorem fold_publish (v : PublishView) (ps : List Property) (h : ∀ p ∈ ps, p.id ∈ publishIds)
    (hv : publishOf v [] = v) : ps.foldlM applyPublish v = some (publishOf v ps) := by
  induction ps using snoc_induction with
  | h0 => rw [hv]; rfl
  | hs ps p ih =>
    rw [List.foldlM_append, ih (fun q hq => h q (by simp [hq]))]
    have hp := h p (by simp)
    obtain ⟨id, val⟩ := p
    simp only [publishIds, List.mem_cons, List.not_mem_nil, or_false] at hp
    simp only [List.foldlM_cons, List.foldlM_nil, bind, Option.bind_some, publishOf, lastOf_snoc, users_snoc,
      subIds_snoc]
    rcases hp with rfl | rfl | rfl | rfl | rfl | rfl | rfl | rfl <;> rfl

def pubackOf (id reason : Nat) (ps : List Property) : PubackView :=
  { packetId := id, reasonCode := reason, reasonString := (lastOf 31 ps).map textOf, userProperties := users ps }

theorem fold_puback (id reason : Nat) (ps : List Property) (h : ∀ p ∈ ps, p.id ∈ ackIds) :
    ps.foldlM applyPuback { packetId := id, reasonCode := reason } = some (pubackOf id reason ps) := by
  induction ps using snoc_induction with
  | h0 => rfl
  | hs ps p ih =>
    rw [List.foldlM_append, ih (fun q hq => h q (by simp [hq]))]
    have hp := h p (by simp)
    obtain ⟨id, val⟩ := p
    simp only [ackIds, List.mem_cons, List.not_mem_nil, or_false] at hp
    simp only [List.foldlM_cons, List.foldlM_nil, bind, Option.bind_some, pubackOf, lastOf_snoc, users_snoc]
    rcases hp with rfl | rfl <;> rfl

def subackOf (id : Nat) (ps : List Property) : SubackView :=
  { packetId := id, reasonString := (lastOf 31 ps).map textOf, userProperties := users ps }

theorem fold_suback (id : Nat) (ps : List Property) (h : ∀ p ∈ ps, p.id ∈ ackIds) :
    ps.foldlM applySuback { packetId := id } = some (subackOf id ps) := by
  induction ps using snoc_induction with
  | h0 => rfl
  | hs ps p ih =>
    rw [List.foldlM_append, ih (fun q hq => h q (by simp [hq]))]
    have hp := h p (by simp)
    obtain ⟨id, val⟩ := p
    simp only [ackIds, List.mem_cons, List.not_mem_nil, or_false] at hp
    simp only [List.foldlM_cons, List.foldlM_nil, bind, Option.bind_some, subackOf, lastOf_snoc, users_snoc]
    rcases hp with rfl | rfl <;> rfl

def disconnectOf (reason : Nat) (ps : List Property) : DisconnectView :=
  { reasonCode := reason, sessionExpiry := (lastOf 17 ps).map numOf, reasonString := (lastOf 31 ps).map textOf,
    serverReference := (lastOf 28 ps).map textOf, userProperties := users ps }

theorem fold_disconnect (reason : Nat) (ps : List Property) (h : ∀ p ∈ ps, p.id ∈ disconnectIds) :
    ps.foldlM applyDisconnect { reasonCode := reason } = some (disconnectOf reason ps) := by
  induction ps using snoc_induction with
  | h0 => rfl
  | hs ps p ih =>
    rw [List.foldlM_append, ih (fun q hq => h q (by simp [hq]))]
    have hp := h p (by simp)
    obtain ⟨id, val⟩ := p
    simp only [disconnectIds, List.mem_cons, List.not_mem_nil, or_false] at hp
    simp only [List.foldlM_cons, List.foldlM_nil, bind, Option.bind_some, disconnectOf, lastOf_snoc, users_snoc]
    rcases hp with rfl | rfl | rfl | rfl <;> rfl

theorem fold_ids {α : Type} {apply : α → Property → Option α} {ids : List Nat}
    (ha : ∀ v p v', apply v p = some v' → p.id ∈ ids) (ps : List Property) (v v' : α)
    (h : ps.foldlM apply v = some v') : ∀ p ∈ ps, p.id ∈ ids := by
  induction ps generalizing v with
  | nil => simp
  | cons p ps ih =>
    rw [List.foldlM_cons] at h
    cases hp : apply v p with
    | none => simp [hp] at h
    | some v1 =>
      simp only [hp, bind, Option.bind_some] at h
      intro q hq
      rcases List.mem_cons.1 hq with rfl | hq
      · exact ha _ _ _ hp
      · exact ih _ h q hq

theorem connack_ids (v : ConnackView) (p : Property) (v' : ConnackView) (h : applyConnack v p = some v') :
    p.id ∈ connackIds := by
  unfold applyConnack at h
  split at h <;> simp_all [connackIds]

theorem publish_ids (v : PublishView) (p : Property) (v' : PublishView) (h : applyPublish v p = some v') :
    p.id ∈ publishIds := by
  unfold applyPublish at h
  split at h <;> simp_all [publishIds]

theorem puback_ids (v : PubackView) (p : Property) (v' : PubackView) (h : applyPuback v p = some v') :
    p.id ∈ ackIds := by
  unfold applyPuback at h
  split at h <;> simp_all [ackIds]

theorem suback_ids (v : SubackView) (p : Property) (v' : SubackView) (h : applySuback v p = some v') :
    p.id ∈ ackIds := by
  unfold applySuback at h
  split at h <;> simp_all [ackIds]

theorem disconnect_ids (v : DisconnectView) (p : Property) (v' : DisconnectView)
    (h : applyDisconnect v p = some v') : p.id ∈ disconnectIds := by
  unfold applyDisconnect at h
  split at h <;> simp_all [disconnectIds]

/-! ### A property that occurs once -/

theorem lastOf_once {id : Nat} {ps : List Property} (h : (ps.filter fun p => p.id == id).length ≤ 1) :
    lastOf id ps = the id ps := by
  unfold lastOf the
  rw [← List.head?_filter, ← List.head?_filter, List.filter_reverse]
  revert h
  generalize (ps.filter fun p => p.id == id) = q
  intro h
  match q with
  | [] => rfl
  | [_] => rfl
  | _ :: _ :: _ => simp at h

theorem flag_once {id : Nat} {ps : List Property} (h : (ps.filter fun p => p.id == id).length ≤ 1)
    (hv : ∀ p ∈ ps, p.id = id → p.value = .num 0 ∨ p.value = .num 1) :
    ((lastOf id ps).map fun v => numOf v != 0) = flag id ps := by
  rw [lastOf_once h]
  unfold flag the
  cases hf : ps.find? fun p => p.id == id with
  | none => rfl
  | some p =>
    have h1 := List.mem_of_find?_eq_some hf
    have h2 := List.find?_some hf
    simp only [beq_iff_eq] at h2
    rcases hv p h1 h2 with h3 | h3 <;> simp [h3, numOf]

end Mqtt.V5
