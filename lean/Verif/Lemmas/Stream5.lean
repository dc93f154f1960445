import Verif.Decoder5
import Verif.Lemmas.Vli5
import Verif.Lemmas.Decoder311

namespace Mqtt.V5
open Mqtt

/-! ### Variable length integers in pieces -/

theorem decodeVli_append {x r : Bytes} {n : Nat} (h : decodeVli x = .ok n r) (y : Bytes) :
    decodeVli (x ++ y) = .ok n (r ++ y) := by
  obtain ⟨vs, hv, rfl⟩ := decodeVli_ok h
  rw [List.append_assoc, decodeVli_lengthField hv]

theorem decodeVli_error_append {x : Bytes} (h : decodeVli x = .error) (y : Bytes) :
    decodeVli (x ++ y) = .error := by
  rw [decodeVli_eq] at h ⊢
  cases hd : decodeRemainingLength x with
  | ok v => rw [hd] at h; simp [ofRL] at h
  | error e =>
    rcases Decoder311.decodeRL_err hd with rfl | rfl
    · rw [hd] at h; simp [ofRL] at h
    · rw [Decoder311.decodeRL_invalid_append hd y]; rfl

theorem decodeVli_ok_length {x r : Bytes} {n : Nat} (h : decodeVli x = .ok n r) : r.length < x.length := by
  obtain ⟨vs, hv, rfl⟩ := decodeVli_ok h
  have := decodeVli_lengthField hv []
  cases vs with
  | nil => simp [decodeVli, decodeVliLoop] at this
  | cons a vs => simp; omega

/-- The integer ends with the byte that completes it. -/
theorem decodeVli_last {q r : Bytes} {b : UInt8} {n : Nat} (hs : decodeVli q = .more)
    (h : decodeVli (q ++ [b]) = .ok n r) : r = [] := by
  obtain ⟨vs, hv, he⟩ := decodeVli_ok h
  rcases List.eq_nil_or_concat r with rfl | ⟨r', c, rfl⟩
  · rfl
  · rw [List.concat_eq_append, ← List.append_assoc] at he
    have := List.append_inj_left' he rfl
    rw [this, decodeVli_lengthField hv] at hs
    simp at hs

/-! ### The whole stream at once -/

inductive Parsed (σ : Type) where
  | pending (w : World σ) (rest : Bytes)
  | error (w : World σ)

variable {σ : Type} (handle : OnPacket σ)

/-- Parser of a whole stream. -/
def parse (w : World σ) (bytes : Bytes) : Parsed σ :=
  match bytes with
  | [] => .pending w []
  | b :: rest =>
    if decodable (typeOf b) then
      match _h : decodeVli rest with
      | .more => .pending w (b :: rest)
      | .error => .error w
      | .ok n r =>
        if r.length < n then .pending w (b :: rest)
        else if (deliverPacket handle w b n (r.take n)).2 then
          parse (deliverPacket handle w b n (r.take n)).1 (r.drop n)
        else .error (deliverPacket handle w b n (r.take n)).1
    else .error w
termination_by bytes.length
decreasing_by
  have := decodeVli_ok_length _h
  simp only [List.length_drop, List.length_cons]; omega

theorem parse_nil (w : World σ) : parse handle w [] = .pending w [] := by rw [parse]

theorem parse_type (w : World σ) (b : UInt8) (rest : Bytes) (h : decodable (typeOf b) = false) :
    parse handle w (b :: rest) = .error w := by
  rw [parse, h]; simp

theorem parse_more (w : World σ) {b : UInt8} {rest : Bytes} (hb : decodable (typeOf b) = true)
    (h : decodeVli rest = .more) : parse handle w (b :: rest) = .pending w (b :: rest) := by
  rw [parse, if_pos hb]; split <;> simp_all

theorem parse_error (w : World σ) {b : UInt8} {rest : Bytes} (hb : decodable (typeOf b) = true)
    (h : decodeVli rest = .error) : parse handle w (b :: rest) = .error w := by
  rw [parse, if_pos hb]; split <;> simp_all

theorem parse_ok (w : World σ) {b : UInt8} {rest r : Bytes} {n : Nat} (hb : decodable (typeOf b) = true)
    (h : decodeVli rest = .ok n r) : parse handle w (b :: rest) =
      if r.length < n then .pending w (b :: rest)
      else if (deliverPacket handle w b n (r.take n)).2 then
        parse handle (deliverPacket handle w b n (r.take n)).1 (r.drop n)
      else .error (deliverPacket handle w b n (r.take n)).1 := by
  rw [parse, if_pos hb]; split <;> simp_all

/-- The decoder that holds the given bytes of an incomplete packet. -/
def ofPending (p : Bytes) : Decoder :=
  match p with
  | [] => Decoder.init
  | b :: q => match decodeVli q with
    | .ok n r => ⟨.readPacket, r, b, n⟩
    | _ => ⟨.readRemainingLength, q, b, 0⟩

/-- The bytes held are the start of one packet. -/
def Holdable (p : Bytes) : Prop :=
  match p with
  | [] => True
  | b :: q => decodable (typeOf b) = true ∧
    (decodeVli q = .more ∨ ∃ n r, decodeVli q = .ok n r ∧ r.length ≤ n)

theorem parse_pending_holdable (bytes : Bytes) : ∀ (w w' : World σ) (p : Bytes),
    parse handle w bytes = .pending w' p → Holdable p := by
  induction hn : bytes.length using Nat.strongRecOn generalizing bytes with
  | ind k ih =>
    intro w w' p h
    cases bytes with
    | nil => rw [parse_nil] at h; cases h; trivial
    | cons b rest =>
      cases hb : decodable (typeOf b) with
      | false => rw [parse_type _ _ _ _ hb] at h; cases h
      | true =>
        cases hd : decodeVli rest with
        | more => rw [parse_more _ _ hb hd] at h; cases h; exact ⟨hb, Or.inl hd⟩
        | error => rw [parse_error _ _ hb hd] at h; cases h
        | ok n r =>
          rw [parse_ok _ _ hb hd] at h
          split at h
          · cases h; exact ⟨hb, Or.inr ⟨n, r, hd, by omega⟩⟩
          · split at h
            · have := decodeVli_ok_length hd
              refine ih _ ?_ _ rfl _ _ _ h
              simp only [List.length_drop, List.length_cons] at hn ⊢; omega
            · cases h

theorem parse_append (x : Bytes) : ∀ (y : Bytes) (w : World σ),
    parse handle w (x ++ y) = match parse handle w x with
      | .pending w' p => parse handle w' (p ++ y)
      | .error w' => .error w' := by
  induction hn : x.length using Nat.strongRecOn generalizing x with
  | ind k ih =>
    intro y w
    cases x with
    | nil => rw [parse_nil]
    | cons b rest =>
      cases hb : decodable (typeOf b) with
      | false => rw [parse_type _ _ _ _ hb, List.cons_append, parse_type _ _ _ _ hb]
      | true =>
        cases hd : decodeVli rest with
        | more => rw [parse_more _ _ hb hd]
        | error =>
          rw [parse_error _ _ hb hd, List.cons_append, parse_error _ _ hb (decodeVli_error_append hd y)]
        | ok n r =>
          have hl := decodeVli_ok_length hd
          rw [parse_ok _ _ hb hd]
          by_cases h1 : r.length < n
          · simp only [h1, if_true]
          · rw [List.cons_append, parse_ok _ _ hb (decodeVli_append hd y), if_neg (by simp; omega), if_neg h1,
              List.take_append_of_le_length (by omega), List.drop_append_of_le_length (by omega)]
            split
            · apply ih _ _ _ rfl
              simp only [List.length_drop, List.length_cons] at hn ⊢; omega
            · rfl

theorem onData_success {d : Decoder} {w : World σ} {data : Bytes} {d' : Decoder} {w' : World σ} {rest : Bytes}
    (h : step handle d w data = (.success, d', w', rest)) :
    onDataReceived handle d w data = onDataReceived handle d' w' rest := by
  rw [onDataReceived]; split <;> simp_all

theorem onData_more {d : Decoder} {w : World σ} {data : Bytes} {d' : Decoder} {w' : World σ} {rest : Bytes}
    (h : step handle d w data = (.more, d', w', rest)) :
    onDataReceived handle d w data = (true, d', w') := by
  rw [onDataReceived]; split <;> simp_all

theorem onData_error {d : Decoder} {w : World σ} {data : Bytes} {d' : Decoder} {w' : World σ} {rest : Bytes}
    (h : step handle d w data = (.error, d', w', rest)) :
    onDataReceived handle d w data = (false, { d' with state := .fatalError }, w') := by
  rw [onDataReceived]; split <;> simp_all

/-- Reading the length byte by byte gives what decoding it in one piece gives. -/
theorem readVliOnData_eq (data : Bytes) : ∀ (q : Bytes), decodeVli q = .more →
    match decodeVli (q ++ data) with
    | .more => readVliOnData q data = (.more, q ++ data, [])
    | .error => ∃ s t, readVliOnData q data = (.error, s, t)
    | .ok n r => ∃ s, readVliOnData q data = (.ok n [], s, r) := by
  induction data with
  | nil => intro q hq; simp [hq, readVliOnData]
  | cons b rest ih =>
    intro q hq
    have happ : q ++ b :: rest = (q ++ [b]) ++ rest := by simp
    rw [readVliOnData, happ]
    cases hd : decodeVli (q ++ [b]) with
    | more => exact ih _ hd
    | error => rw [decodeVli_error_append hd]; exact ⟨_, _, rfl⟩
    | ok n r =>
      have hr := decodeVli_last hq hd
      subst hr
      rw [decodeVli_append hd]
      exact ⟨_, rfl⟩

theorem advance_le {n : Nat} {cur : Bytes} (h : n ≤ cur.length) : advance n cur = (cur.take n, cur.drop n) := by
  simp [advance, h]

/-- One call of the decoder holding `p` equals parsing `p` followed by the new data. -/
def Agrees (w : World σ) (p data : Bytes) : Prop :=
  match parse handle w (p ++ data) with
  | .pending w' p' => onDataReceived handle (ofPending p) w data = (true, ofPending p', w')
  | .error w' => ∃ d', onDataReceived handle (ofPending p) w data = (false, d', w') ∧ d'.state = .fatalError

theorem onData_whole (w : World σ) {b : UInt8} {q r : Bytes} {n : Nat} (hb : decodable (typeOf b) = true)
    (hq : decodeVli q = .ok n r) (hle : r.length ≤ n) (rest : Bytes)
    (hnext : ∀ (w : World σ) (rest' : Bytes), rest'.length ≤ rest.length → Agrees handle w [] rest') :
    Agrees handle w (b :: q) rest := by
  unfold Agrees
  have hof : ofPending (b :: q) = ⟨.readPacket, r, b, n⟩ := by simp [ofPending, hq]
  rw [List.cons_append, parse_ok _ _ hb (decodeVli_append hq rest), hof]
  by_cases h1 : (r ++ rest).length < n
  · rw [if_pos h1]
    have h1' := h1
    rw [List.length_append] at h1'
    have e1 : subSize n r.length = n - r.length := by simp [subSize, hle]
    have e2 : min (n - r.length) rest.length = rest.length := by omega
    have hst : step handle ⟨.readPacket, r, b, n⟩ w rest = (.more, ⟨.readPacket, r ++ rest, b, n⟩, w, []) := by
      simp only [step, readPacket]
      rw [if_neg (by simp only [not_and]; intro _; omega)]
      simp only [e1, e2]
      rw [if_pos (by omega), advance_le (Nat.le_refl _)]
      simp
    rw [onData_more handle hst]
    simp [ofPending, decodeVli_append hq rest]
  · rw [if_neg h1]
    rw [List.length_append] at h1
    have hfin : step handle ⟨.readPacket, r, b, n⟩ w rest =
        (if (deliverPacket handle w b n ((r ++ rest).take n)).2 then Directive.success else Directive.error,
         if (deliverPacket handle w b n ((r ++ rest).take n)).2 then Decoder.init
           else ⟨.readPacket, if r.length = 0 ∧ n ≤ rest.length then [] else (r ++ rest).take n, b, n⟩,
         (deliverPacket handle w b n ((r ++ rest).take n)).1, (r ++ rest).drop n) := by
      simp only [step, readPacket]
      split
      · rename_i hz
        have hr : r = [] := List.length_eq_zero_iff.mp hz.1
        subst hr
        rw [advance_le hz.2]
        simp only [finishPacket, List.nil_append]
        split <;> simp
      · rename_i hz
        have e1 : subSize n r.length = n - r.length := by simp [subSize, hle]
        have e2 : min (n - r.length) rest.length = n - r.length := by omega
        have e3 : (r ++ rest).take n = r ++ rest.take (n - r.length) := by
          rw [List.take_append, List.take_of_length_le hle]
        have e4 : (r ++ rest).drop n = rest.drop (n - r.length) := by
          rw [List.drop_append, List.drop_of_length_le hle]; simp
        simp only [e1, e2, Nat.lt_irrefl, if_false, finishPacket]
        rw [advance_le (by omega), e3, e4]
        simp only
        split <;> simp
    cases hok : (deliverPacket handle w b n ((r ++ rest).take n)).2 with
    | true =>
      rw [hok] at hfin
      rw [onData_success handle hfin]
      simp only [if_true]
      have := hnext (deliverPacket handle w b n ((r ++ rest).take n)).1 ((r ++ rest).drop n) (by simp; omega)
      exact this
    | false =>
      rw [hok] at hfin
      rw [onData_error handle hfin]
      simp only [Bool.false_eq_true, if_false]
      exact ⟨_, rfl, rfl⟩

theorem onData_length (w : World σ) {b : UInt8} {q : Bytes} (hb : decodable (typeOf b) = true)
    (hq : decodeVli q = .more) (rest : Bytes)
    (hnext : ∀ (w : World σ) (rest' : Bytes), rest'.length < rest.length → Agrees handle w [] rest') :
    Agrees handle w (b :: q) rest := by
  unfold Agrees
  have hof : ofPending (b :: q) = ⟨.readRemainingLength, q, b, 0⟩ := by simp [ofPending, hq]
  have hv := readVliOnData_eq rest q hq
  rw [hof, List.cons_append]
  cases hd : decodeVli (q ++ rest) with
  | more =>
    rw [hd] at hv
    simp only at hv
    rw [parse_more _ _ hb hd]
    have hst : step handle ⟨.readRemainingLength, q, b, 0⟩ w rest =
        (.more, ⟨.readRemainingLength, q ++ rest, b, 0⟩, w, []) := by
      simp [step, readRemainingLength, hv]
    rw [onData_more handle hst]
    simp [ofPending, hd]
  | error =>
    rw [hd] at hv
    obtain ⟨s, t, hv⟩ := hv
    rw [parse_error _ _ hb hd]
    have hst : step handle ⟨.readRemainingLength, q, b, 0⟩ w rest =
        (.error, ⟨.readRemainingLength, s, b, 0⟩, w, t) := by
      simp [step, readRemainingLength, hv]
    rw [onData_error handle hst]
    exact ⟨_, rfl, rfl⟩
  | ok n r =>
    rw [hd] at hv
    obtain ⟨s, hv⟩ := hv
    have hrl := readVliOnData_length _ _ hv
    have hst : step handle ⟨.readRemainingLength, q, b, 0⟩ w rest =
        (.success, ⟨.readPacket, [], b, n⟩, w, r) := by
      simp [step, readRemainingLength, hv]
    rw [onData_success handle hst]
    -- the part of `q ++ rest` that is the length field
    obtain ⟨vs, hvs, he⟩ := decodeVli_ok hd
    have hz : decodeVli vs = .ok n [] := by simpa using decodeVli_lengthField hvs []
    have := onData_whole handle w hb hz (by simp) r (fun w rest' h' => hnext w rest' (by omega))
    unfold Agrees at this
    have hof' : ofPending (b :: vs) = ⟨.readPacket, [], b, n⟩ := by simp [ofPending, hz]
    rw [hof', List.cons_append, ← he] at this
    exact this

theorem onData_start (w : World σ) (rest : Bytes)
    (hnext : ∀ (w : World σ) (rest' : Bytes), rest'.length < rest.length → Agrees handle w [] rest') :
    Agrees handle w [] rest := by
  unfold Agrees
  rw [List.nil_append]
  cases rest with
  | nil =>
    rw [parse_nil]
    have hst : step handle Decoder.init w [] = (.more, Decoder.init, w, []) := by
      simp [step, Decoder.init, readPacketType]
    show onDataReceived handle Decoder.init w [] = _
    rw [onData_more handle hst]; rfl
  | cons b rest =>
    cases hb : decodable (typeOf b) with
    | false =>
      rw [parse_type _ _ _ _ hb]
      have hst : step handle Decoder.init w (b :: rest) = (.error, ⟨.readPacketType, [b], 0, 0⟩, w, rest) := by
        simp [step, Decoder.init, readPacketType, hb]
      show ∃ d', onDataReceived handle Decoder.init w (b :: rest) = _ ∧ _
      rw [onData_error handle hst]
      exact ⟨_, rfl, rfl⟩
    | true =>
      have hst : step handle Decoder.init w (b :: rest) =
          (.success, ⟨.readRemainingLength, [], b, 0⟩, w, rest) := by
        simp [step, Decoder.init, readPacketType, hb]
      have hmore : decodeVli [] = .more := by simp [decodeVli, decodeVliLoop]
      have := onData_length handle w hb hmore rest (fun w rest' h' => hnext w rest' (by simp; omega))
      unfold Agrees at this
      have hof : ofPending [b] = ⟨.readRemainingLength, [], b, 0⟩ := by simp [ofPending, hmore]
      rw [hof, ← onData_success handle hst] at this
      exact this

theorem onData_nil (rest : Bytes) : ∀ (w : World σ), Agrees handle w [] rest := by
  induction hm : rest.length using Nat.strongRecOn generalizing rest with
  | ind m ihm =>
    intro w
    exact onData_start handle w rest (fun w rest' h' => ihm _ (by omega) rest' rfl w)

theorem onData_eq (p data : Bytes) (w : World σ) (hp : Holdable p) : Agrees handle w p data := by
  cases p with
  | nil => exact onData_nil handle data w
  | cons b q =>
    rcases hp with ⟨hb, hq | ⟨n, r, hq, hle⟩⟩
    · exact onData_length handle w hb hq data (fun w rest' _ => onData_nil handle rest' w)
    · exact onData_whole handle w hb hq hle data (fun w rest' _ => onData_nil handle rest' w)

end Mqtt.V5
