/-
Byte-level foundations shared by every part of the model.

`aws_byte_cursor` is modelled as the list of bytes still to be read, `aws_byte_buf` as the bytes
written so far plus a capacity.  The functions below are the aws-c-common operations used by
/repo/source (aws-c-common is not part of /repo; their behaviour is part of the trusted base and
is listed in DESIGN.md).
-/
namespace Mqtt

abbrev Bytes := List UInt8

/-- Error codes raised by the modelled code (`include/aws/mqtt/mqtt.h:18-93` and
`AWS_ERROR_SHORT_BUFFER` / `AWS_ERROR_INVALID_ARGUMENT` of aws-c-common). -/
inductive Err where
  | shortBuffer
  | invalidArgument
  | invalidReservedBits
  | invalidRemainingLength
  | bufferTooBig
  | unsupportedProtocolName
  | unsupportedProtocolLevel
  | invalidCredentials
  | invalidQos
  | invalidPacketType
  | protocolError
  | encodeFailure
  | mqtt5DecodeProtocolError
  | other
deriving DecidableEq, Repr

deriving instance DecidableEq for Except

/-- `aws_byte_buf`: bytes written so far and capacity. -/
structure Buf where
  cap : Nat
  data : Bytes
deriving DecidableEq, Repr

/-- `aws_byte_buf_write` / `_write_u8` / `_write_be16` / `_write_be32`: all-or-nothing append.
The C functions return `false`, and every caller in /repo turns this into
`AWS_ERROR_SHORT_BUFFER` (unless the caller ignores the result). -/
def Buf.put (b : Buf) (xs : Bytes) : Except Err Buf :=
  if b.data.length + xs.length ≤ b.cap then .ok { b with data := b.data ++ xs }
  else .error .shortBuffer

/-- Big-endian 16-bit value (`aws_byte_buf_write_be16`). -/
def be16 (x : UInt16) : Bytes := [UInt8.ofNat (x.toNat / 256), UInt8.ofNat (x.toNat % 256)]

/-- Big-endian 32-bit value (`aws_byte_buf_write_be32`). -/
def be32 (x : UInt32) : Bytes :=
  [UInt8.ofNat (x.toNat / 16777216), UInt8.ofNat (x.toNat / 65536 % 256),
   UInt8.ofNat (x.toNat / 256 % 256), UInt8.ofNat (x.toNat % 256)]

/-- `aws_byte_cursor_read_u8`: fails without consuming when empty. -/
def readU8 : Bytes → Option (UInt8 × Bytes)
  | [] => none
  | b :: rest => some (b, rest)

/-- `aws_byte_cursor_read_be16`: fails without consuming when fewer than two bytes remain. -/
def readBe16 : Bytes → Option (UInt16 × Bytes)
  | a :: b :: rest => some (UInt16.ofNat (a.toNat * 256 + b.toNat), rest)
  | _ => none

/-- `aws_byte_cursor_read_be32`. -/
def readBe32 : Bytes → Option (UInt32 × Bytes)
  | a :: b :: c :: d :: rest =>
    some (UInt32.ofNat (a.toNat * 16777216 + b.toNat * 65536 + c.toNat * 256 + d.toNat), rest)
  | _ => none

/-- `aws_byte_cursor_advance(cursor, n)`: when `n` exceeds the remaining length the result is the
empty cursor and the source cursor does *not* move. -/
def advance (n : Nat) (cur : Bytes) : Bytes × Bytes :=
  if n ≤ cur.length then (cur.take n, cur.drop n) else ([], cur)

/-- Lift an optional read to the `AWS_ERROR_SHORT_BUFFER` error used by all callers. -/
def orShort {α : Type} : Option α → Except Err α
  | some a => .ok a
  | none => .error .shortBuffer

/-- `size_t` subtraction for operands below 2^64 (wraps modulo 2^64). -/
def subSize (a b : Nat) : Nat := if b ≤ a then a - b else 2 ^ 64 - (b - a)

/-! ### Facts about the primitives -/

theorem readBe16_be16 (x : UInt16) (rest : Bytes) : readBe16 (be16 x ++ rest) = some (x, rest) := by
  have h : x.toNat < 65536 := x.toNat_lt
  have h1 : x.toNat / 256 < 256 := by omega
  have h2 : x.toNat % 256 < 256 := by omega
  simp only [be16, List.cons_append, List.nil_append, readBe16]
  congr 2
  apply UInt16.toNat_inj.mp
  simp only [UInt16.toNat_ofNat', UInt8.toNat_ofNat']
  omega

theorem readBe32_be32 (x : UInt32) (rest : Bytes) : readBe32 (be32 x ++ rest) = some (x, rest) := by
  have h : x.toNat < 4294967296 := x.toNat_lt
  simp only [be32, List.cons_append, List.nil_append, readBe32]
  congr 2
  apply UInt32.toNat_inj.mp
  simp only [UInt32.toNat_ofNat', UInt8.toNat_ofNat']
  omega

@[simp] theorem be16_length (x : UInt16) : (be16 x).length = 2 := rfl
@[simp] theorem be32_length (x : UInt32) : (be32 x).length = 4 := rfl

theorem be16_of_readBe16 {cur rest : Bytes} {x : UInt16} (h : readBe16 cur = some (x, rest)) :
    cur = be16 x ++ rest := by
  match cur, h with
  | a :: b :: r, h =>
    simp only [readBe16, Option.some.injEq, Prod.mk.injEq] at h
    obtain ⟨rfl, rfl⟩ := h
    have ha := a.toNat_lt; have hb := b.toNat_lt
    simp only [be16, List.cons_append, List.nil_append, UInt16.toNat_ofNat']
    have h1 : (a.toNat * 256 + b.toNat) % 2 ^ 16 / 256 = a.toNat := by omega
    have h2 : (a.toNat * 256 + b.toNat) % 2 ^ 16 % 256 = b.toNat := by omega
    rw [h1, h2]; simp

theorem advance_append (xs rest : Bytes) : advance xs.length (xs ++ rest) = (xs, rest) := by
  simp [advance]

theorem Buf.put_ok {b b' : Buf} {xs : Bytes} (h : b.put xs = .ok b') :
    b'.data = b.data ++ xs ∧ b'.cap = b.cap := by
  unfold Buf.put at h; split at h <;> simp at h; subst h; simp

/-- Two writes in sequence behave as one write of the concatenation. -/
theorem Buf.put_bind (b : Buf) (xs ys : Bytes) :
    (b.put xs >>= fun b' => b'.put ys) = b.put (xs ++ ys) := by
  unfold Buf.put
  by_cases h1 : b.data.length + xs.length ≤ b.cap
  · by_cases h2 : b.data.length + (xs ++ ys).length ≤ b.cap
    · simp only [List.length_append] at h2
      simp [h1, bind, Except.bind, Nat.add_assoc, h2]
    · simp only [List.length_append] at h2
      simp [h1, bind, Except.bind, Nat.add_assoc, h2]
  · have h2 : ¬ b.data.length + (xs ++ ys).length ≤ b.cap := by
      simp only [List.length_append]; omega
    simp only [h1, h2, if_false, bind, Except.bind]

theorem Buf.put_nil (b : Buf) (h : b.data.length ≤ b.cap) : b.put [] = .ok b := by
  simp [Buf.put, h]

/-- The low seven bits of a byte. -/
theorem and127 (b : UInt8) : (b &&& 127).toNat = b.toNat % 128 := by
  have : (127 : UInt8).toNat = 2 ^ 7 - 1 := rfl
  rw [UInt8.toNat_and, this, Nat.and_two_pow_sub_one_eq_mod]

theorem all_bytes {P : UInt8 → Prop} (h : ∀ n, n < 256 → P (UInt8.ofNat n)) (b : UInt8) : P b := by
  have := h b.toNat b.toNat_lt
  simpa using this

/-- The continuation bit of a byte. -/
theorem and128 (b : UInt8) : b &&& 128 = 0 ↔ b.toNat < 128 := by
  revert b
  apply all_bytes
  decide +kernel

end Mqtt
