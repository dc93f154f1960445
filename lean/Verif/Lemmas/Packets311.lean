import Verif.Packets311
import Verif.Lemmas.FixedHeader

/-! Helper lemmas for the 3.1.1 packets (no property statements here). -/
namespace Mqtt

theorem str_eq (s : Bytes) (h : s.length ≤ 65535) :
    Spec.str s = be16 (UInt16.ofNat s.length) ++ s := by
  have : (UInt16.ofNat s.length).toNat = s.length := by simp [UInt16.toNat_ofNat']; omega
  simp [Spec.str, be16, this]

@[simp] theorem str_length (s : Bytes) : (Spec.str s).length = 2 + s.length := by
  simp [Spec.str]; omega

theorem u16_eq (x : UInt16) : Spec.u16 x = be16 x := rfl
@[simp] theorem u16_length (x : UInt16) : (Spec.u16 x).length = 2 := rfl

theorem encodeBuffer_eq (b : Buf) (s : Bytes) (h : s.length ≤ 65535) :
    encodeBuffer b s = b.put (Spec.str s) := by
  unfold encodeBuffer
  rw [if_neg (by omega), str_eq s h]
  exact Buf.put_bind _ _ _

theorem decodeBuffer_str (s rest : Bytes) (h : s.length ≤ 65535) :
    decodeBuffer (Spec.str s ++ rest) = .ok (s, rest) := by
  have h2 : (UInt16.ofNat s.length).toNat = s.length := by simp [UInt16.toNat_ofNat']; omega
  rw [str_eq s h, List.append_assoc]
  unfold decodeBuffer
  rw [readBe16_be16]
  simp only [orShort, bind, Except.bind, h2, advance_append]

/-- A write can only fail with SHORT_BUFFER. -/
theorem put_remap (b : Buf) (xs : Bytes) : remapShort (b.put xs) = b.put xs := by
  by_cases h : b.data.length + xs.length ≤ b.cap <;> simp [Buf.put, h, remapShort]

theorem put_ignore (b : Buf) (s : Bytes) (h : s.length ≤ 65535)
    (hroom : b.data.length + (Spec.str s).length ≤ b.cap) :
    encodeBufferIgnoreResult b s = { b with data := b.data ++ Spec.str s } := by
  unfold encodeBufferIgnoreResult
  rw [str_length] at hroom
  rw [if_neg (by omega), str_eq s h]
  have h1 : b.data.length + (be16 (UInt16.ofNat s.length)).length ≤ b.cap := by simp; omega
  have h2 : (b.data ++ be16 (UInt16.ofNat s.length)).length + s.length ≤ b.cap := by simp; omega
  have e1 : b.put (be16 (UInt16.ofNat s.length)) =
      .ok { b with data := b.data ++ be16 (UInt16.ofNat s.length) } := by
    rw [Buf.put, if_pos h1]
  have e2 : ({ b with data := b.data ++ be16 (UInt16.ofNat s.length) } : Buf).put s =
      .ok { b with data := b.data ++ be16 (UInt16.ofNat s.length) ++ s } := by
    rw [Buf.put, if_pos h2]
  simp only [e1, e2, List.append_assoc]

theorem put_bind_congr {α : Type} (b : Buf) (xs : Bytes) (f g : Buf → Except Err α)
    (h : ∀ b' : Buf, b'.data = b.data ++ xs → b'.cap = b.cap → b'.data.length ≤ b'.cap → f b' = g b') :
    (b.put xs >>= f) = (b.put xs >>= g) := by
  cases hb : b.put xs with
  | error e => rfl
  | ok b' =>
    obtain ⟨h1, h2⟩ := Buf.put_ok hb
    refine h b' h1 h2 ?_
    unfold Buf.put at hb; split at hb <;> simp at hb; subst hb; simpa using by assumption

theorem ok_bind {α β : Type} (a : α) (f : α → Except Err β) : (Except.ok a >>= f) = f a := rfl

theorem subSize_eq (a b : Nat) (h : b ≤ a) : subSize a b = a - b := by
  simp [subSize, h]

theorem fixedHeaderByte_eq (t f : Nat) (rl : Nat) (ht : t < 16) (hf : f < 16) :
    fixedHeaderByte { packetType := t, remainingLength := rl, flags := UInt8.ofNat f } =
      UInt8.ofNat (16 * t + f) := by
  have : ∀ t, t < 16 → ∀ f, f < 16 →
      UInt8.ofNat (t <<< 4 ||| (UInt8.ofNat f &&& 0xF).toNat) = UInt8.ofNat (16 * t + f) := by
    decide +kernel
  exact this t ht f hf

/-- Bytes of a frame with a given body, as the code writes them. -/
def frameBytes (t f : Nat) (body : Bytes) : Bytes :=
  UInt8.ofNat (16 * t + f) :: encodeRemainingLengthBytes body.length ++ body

theorem isFrame_frameBytes (t f : Nat) (body : Bytes) : Spec.IsFrame t f body (frameBytes t f body) :=
  ⟨_, encodeRL_varint _, rfl⟩

theorem headerEncode_then (b : Buf) (t f : Nat) (body : Bytes) (ht : t < 16) (hf : f < 16)
    (hfl : packetHasFlags t = true ∨ f = 0) (n : Nat) (hn : n = body.length) :
    (fixedHeaderEncode b { packetType := t, remainingLength := n, flags := UInt8.ofNat f } >>=
      fun b => b.put body) = b.put (frameBytes t f body) := by
  subst hn
  rw [fixedHeaderEncode_eq _ _ (by rcases hfl with h | h <;> simp [h]), fixedHeaderByte_eq _ _ _ ht hf,
    Buf.put_bind]
  rfl

theorem headerDecode_frame (t f : Nat) (body : Bytes) (ht : t < 16) (hf : f < 16)
    (hfl : packetHasFlags t = true ∨ f = 0) (hlen : body.length < 2 ^ 28) :
    fixedHeaderDecode (frameBytes t f body) =
      .ok ({ packetType := t, remainingLength := body.length, flags := UInt8.ofNat f }, body) := by
  have := fixedHeaderDecode_bytes { packetType := t, remainingLength := body.length, flags := UInt8.ofNat f }
    ht (by simp [UInt8.toNat_ofNat']; omega) (by rcases hfl with h | h <;> simp [h]) hlen body (Nat.le_refl _)
  rw [fixedHeaderByte_eq _ _ _ ht hf] at this
  exact this

end Mqtt
