import Verif.Props.C03
import Verif.Props.C03Connect
import Verif.Send311

/-!
C05: a successful encode call has written a header followed by exactly the announced bytes.
C54: packets within MQTT limits fit the message the 3.1.1 client allocates for them.
-/
namespace Mqtt.Props
open Mqtt Mqtt.Spec

theorem encodeBuffer_ok_length {b b' : Buf} {s : Bytes} (h : encodeBuffer b s = .ok b') : s.length ≤ 65535 := by
  unfold encodeBuffer at h
  split at h
  · simp at h
  · omega

theorem bind_ok {α β : Type} {x : Except Err α} {f : α → Except Err β} {y : β} (h : (x >>= f) = .ok y) :
    ∃ a, x = .ok a ∧ f a = .ok y := by
  cases x with
  | error e => simp [bind, Except.bind] at h
  | ok a => exact ⟨a, rfl, h⟩

/-- PUBLISH headers and payload form one frame, whatever the size. -/
theorem publishEncodeHeaders_frame (retain : Bool) (qos : Nat) (dup : Bool) (topic : Bytes) (id : UInt16)
    (payload : Bytes) (hq : qos ≤ 2) (ht : topic.length ≤ 65535) :
    ∃ hdr, (∀ b : Buf, publishEncodeHeaders b (publishInit retain qos dup topic id payload) = b.put hdr) ∧
      frameBytes 3 (publishFlags retain qos dup) (publishBody topic qos id payload) = hdr ++ payload := by
  have hflags : UInt8.ofNat (retain.toNat ||| (qos &&& 3) <<< 1 ||| dup.toNat <<< 3) =
      UInt8.ofNat (publishFlags retain qos dup) ∧ publishFlags retain qos dup < 16 ∧
      ((UInt8.ofNat (publishFlags retain qos dup) >>> 1) &&& 3).toNat = qos := by
    have : qos = 0 ∨ qos = 1 ∨ qos = 2 := by omega
    rcases this with rfl | rfl | rfl <;> cases retain <;> cases dup <;> decide
  obtain ⟨hf1, hf2, hf3⟩ := hflags
  generalize hpd : publishInit retain qos dup topic id payload = p
  have hp : p.header = ⟨3, (publishBody topic qos id payload).length,
      UInt8.ofNat (publishFlags retain qos dup)⟩ := by
    simp only [← hpd, publishInit, hf1, PUBLISH, sizeofEncodedBuffer, publishBody]
    congr 1
    by_cases hq0 : qos = 0
    · simp [hq0]
    · simp [hq0, Nat.pos_of_ne_zero hq0]; omega
  have hpq : publishQos p = qos := by simp only [publishQos, hp, hf3]
  have hpt : p.topic = topic := by rw [← hpd]; rfl
  have hpi : p.packetId = id := by rw [← hpd]; rfl
  refine ⟨UInt8.ofNat (16 * 3 + publishFlags retain qos dup) ::
    encodeRemainingLengthBytes (publishBody topic qos id payload).length ++
    (str topic ++ (if qos = 0 then [] else u16 id)), ?_, by simp [frameBytes, publishBody]⟩
  intro b
  unfold publishEncodeHeaders
  rw [fixedHeaderEncode_eq _ _ (Or.inl (by rw [hp]; rfl)), hp, fixedHeaderByte_eq _ _ _ (by decide) hf2,
    ← Buf.put_bind]
  apply put_bind_congr
  intro b1 _ _ _
  simp only [hpq, hpt, hpi]
  rw [encodeBuffer_eq _ _ ht, ← Buf.put_bind]
  apply put_bind_congr
  intro b2 _ _ h2
  by_cases hq0 : qos = 0
  · simp [hq0, Buf.put_nil _ h2]
  · simp [hq0, Nat.pos_of_ne_zero hq0, u16_eq]

theorem publishEncode_frame (retain : Bool) (qos : Nat) (dup : Bool) (topic : Bytes) (id : UInt16)
    (payload : Bytes) (hq : qos ≤ 2) (ht : topic.length ≤ 65535) (b : Buf) :
    publishEncode b (publishInit retain qos dup topic id payload) =
      b.put (frameBytes 3 (publishFlags retain qos dup) (publishBody topic qos id payload)) := by
  obtain ⟨hdr, hhdr, hframe⟩ := publishEncodeHeaders_frame retain qos dup topic id payload hq ht
  unfold publishEncode
  rw [hhdr, hframe, ← Buf.put_bind]
  rfl

/-- C05 for PUBLISH, any topic and payload (over-long topics make the call fail). -/
theorem C05_publish_truthful (retain : Bool) (qos : Nat) (dup : Bool) (topic : Bytes) (id : UInt16)
    (payload : Bytes) (hq : qos ≤ 2) (b b' : Buf)
    (h : publishEncode b (publishInit retain qos dup topic id payload) = .ok b') :
    ∃ bytes, IsFrame 3 (publishFlags retain qos dup) (publishBody topic qos id payload) bytes ∧
      b'.data = b.data ++ bytes := by
  have ht : topic.length ≤ 65535 := by
    unfold publishEncode publishEncodeHeaders at h
    obtain ⟨_, h1, _⟩ := bind_ok h
    obtain ⟨_, _, h2⟩ := bind_ok h1
    obtain ⟨_, h3, _⟩ := bind_ok h2
    exact encodeBuffer_ok_length h3
  rw [publishEncode_frame _ _ _ _ _ _ hq ht] at h
  exact ⟨_, isFrame_frameBytes _ _ _, (Buf.put_ok h).1⟩

example : (publishEncode ⟨20, []⟩ (publishInit false 1 false [116] 7 [120])).isOk = true := by decide +kernel

/-- A CONNECT that can be encoded is within its limits. -/
theorem connectEncode_inLimits (cid : Bytes) (clean : Bool) (ka : UInt16) (calls : List ConnectCall)
    (hw : calls.countP ConnectCall.isWill ≤ 1)
    (hqos : ∀ w, (requestedConnect cid clean ka calls).will = some w → w.qos ≤ 2)
    (b b' : Buf) (h : connectEncode b (buildConnect cid clean ka calls) = .ok b') :
    Connect.inLimits (requestedConnect cid clean ka calls) := by
  have hrep := buildConnect_represents cid clean ka calls hw
  have h' := h
  generalize requestedConnect cid clean ka calls = c at hrep hqos
  rw [hrep] at h'
  unfold connectEncode at h'
  split at h'
  · simp at h'
  · rename_i hcred
    obtain ⟨_, _, h2⟩ := bind_ok h'
    obtain ⟨_, _, h2⟩ := bind_ok h2
    obtain ⟨_, _, h2⟩ := bind_ok h2
    obtain ⟨_, _, h2⟩ := bind_ok h2
    obtain ⟨_, _, h2⟩ := bind_ok h2
    obtain ⟨_, hc, h2⟩ := bind_ok h2
    obtain ⟨_, hwill, h2⟩ := bind_ok h2
    obtain ⟨_, huser, hpass⟩ := bind_ok h2
    refine ⟨encodeBuffer_ok_length hc, ?_, ?_, ?_, ?_⟩
    · intro w hwe
      simp only [hwe, Option.isSome_some, if_true, Option.map_some, Option.getD_some] at hwill
      obtain ⟨_, h3, h4⟩ := bind_ok hwill
      exact ⟨encodeBuffer_ok_length h3, encodeBuffer_ok_length h4, hqos w hwe⟩
    · intro u hu
      simp only [hu, Option.isSome_some, if_true, Option.getD_some] at huser
      exact encodeBuffer_ok_length huser
    · intro u hu
      simp only [hu, Option.isSome_some, if_true, Option.getD_some] at hpass
      exact encodeBuffer_ok_length hpass
    · intro hp
      cases hu : c.username <;> simp_all

/-- C05 for CONNECT with at most one will: any contents, including over-long strings. -/
theorem C05_connect_truthful_partial (cid : Bytes) (clean : Bool) (ka : UInt16) (calls : List ConnectCall)
    (hw : calls.countP ConnectCall.isWill ≤ 1)
    (hqos : ∀ w, (requestedConnect cid clean ka calls).will = some w → w.qos ≤ 2)
    (b b' : Buf) (h : connectEncode b (buildConnect cid clean ka calls) = .ok b') :
    ∃ bytes, IsFrame 1 0 (requestedConnect cid clean ka calls).body bytes ∧ b'.data = b.data ++ bytes := by
  have hlim := connectEncode_inLimits cid clean ka calls hw hqos b b' h
  obtain ⟨bytes, hfr, henc, _⟩ := C03_connect_roundtrip_partial cid clean ka calls hw hlim
  rw [henc] at h
  exact ⟨bytes, hfr, (Buf.put_ok h).1⟩

example : (connectEncode ⟨100, []⟩ (buildConnect [99] true 30 [.credentials [117] [112]])).isOk = true := by
  decide +kernel

/-- C05 for SUBSCRIBE, true part: with filters of at most 65535 bytes and room for the packet,
success and a truthful frame. Missing: over-long filters and small buffers, see the negations. -/
theorem C05_subscribe_truthful_partial (id : UInt16) (fs : List (Bytes × Nat))
    (hf : ∀ f ∈ fs, f.1.length ≤ 65535 ∧ f.2 ≤ 2) (hlen : (subscribeBody id fs).length < 2 ^ 28) (b : Buf)
    (hroom : b.data.length + 5 + (subscribeBody id fs).length ≤ b.cap) :
    ∃ bytes, IsFrame 8 2 (subscribeBody id fs) bytes ∧
      subscribeEncode b (fs.foldl (fun p f => subscribeAddTopic p f.1 f.2) (subscribeInit id)) =
        .ok { b with data := b.data ++ bytes } := by
  obtain ⟨bytes, hfr, henc, _⟩ := C03_subscribe_roundtrip id fs hf hlen
  have hb : bytes.length ≤ 5 + (subscribeBody id fs).length := by
    obtain ⟨vs, hv, rfl⟩ := hfr
    have : vs.length ≤ 4 := by
      clear henc
      have := varint_eq hv
      rw [this]
      exact encodeRL_length_le 3 _ (by simpa using hlen)
    simp; omega
  refine ⟨bytes, hfr, ?_⟩
  rw [henc b (by omega), Buf.put, if_pos (by omega)]

example : (∀ f ∈ [(([116] : Bytes), 1)], f.1.length ≤ 65535 ∧ f.2 ≤ 2) := by simp

/-- C05 for UNSUBSCRIBE, true part, same hypotheses. -/
theorem C05_unsubscribe_truthful_partial (id : UInt16) (fs : List Bytes)
    (hf : ∀ f ∈ fs, f.length ≤ 65535) (hlen : (unsubscribeBody id fs).length < 2 ^ 28) (b : Buf)
    (hroom : b.data.length + 5 + (unsubscribeBody id fs).length ≤ b.cap) :
    ∃ bytes, IsFrame 10 2 (unsubscribeBody id fs) bytes ∧
      unsubscribeEncode b (fs.foldl unsubscribeAddTopic (unsubscribeInit id)) =
        .ok { b with data := b.data ++ bytes } := by
  obtain ⟨bytes, hfr, henc, _⟩ := C03_unsubscribe_roundtrip id fs hf hlen
  have hb : bytes.length ≤ 5 + (unsubscribeBody id fs).length := by
    obtain ⟨vs, hv, rfl⟩ := hfr
    have : vs.length ≤ 4 := by
      rw [varint_eq hv]
      exact encodeRL_length_le 3 _ (by simpa using hlen)
    simp; omega
  refine ⟨bytes, hfr, ?_⟩
  rw [henc b (by omega), Buf.put, if_pos (by omega)]

/-- C05 is violated by SUBSCRIBE: for every filter longer than 65535 bytes the call succeeds (given
room), but the bytes after the header are fewer than announced (packets.c:734 ignores the failure). -/
theorem C05_subscribe_overlong_violated (id : UInt16) (f : Bytes) (hf : f.length > 65535) (b : Buf)
    (hroom : b.data.length + 20 + f.length ≤ b.cap) (hlen : f.length < 2 ^ 27) :
    ∃ b', subscribeEncode b (subscribeAddTopic (subscribeInit id) f 1) = .ok b' ∧
      ∃ vs, Varint (5 + f.length) vs ∧ b'.data = b.data ++ (0x82 :: vs) ++ u16 id ++ [1] := by
  have hvl : (encodeRemainingLengthBytes (5 + f.length)).length ≤ 4 :=
    encodeRL_length_le 3 _ (by simp; omega)
  have hrl : (subscribeAddTopic (subscribeInit id) f 1).header.remainingLength = 5 + f.length := by
    simp [subscribeAddTopic, subscribeInit, sizeofEncodedBuffer]; omega
  refine ⟨{ b with data := b.data ++ (0x82 :: encodeRemainingLengthBytes (5 + f.length)) ++ u16 id ++ [1] },
    ?_, _, encodeRL_varint _, rfl⟩
  unfold subscribeEncode
  rw [fixedHeaderEncode_eq _ _ (Or.inl rfl), hrl]
  rw [show fixedHeaderByte (subscribeAddTopic (subscribeInit id) f 1).header = 0x82 from
    fixedHeaderByte_eq 8 2 _ (by decide) (by decide)]
  rw [Buf.put, if_pos (by simp; omega), ok_bind, Buf.put, if_pos (by simp; omega), ok_bind]
  simp only [subscribeAddTopic, subscribeInit, List.nil_append, subscribeEncodeLoop, encodeBufferIgnoreResult]
  rw [if_pos hf, Buf.put, if_pos (by simp; omega), ok_bind]
  rfl

/-- Such a filter exists. -/
example : ∃ f : Bytes, f.length > 65535 ∧ f.length < 2 ^ 27 :=
  ⟨List.replicate 65536 0, by rw [List.length_replicate]; decide, by rw [List.length_replicate]; decide⟩

/-! ### C54 -/

theorem frame_length (t f : Nat) (body : Bytes) :
    (frameBytes t f body).length = 1 + (encodeRemainingLengthBytes body.length).length + body.length := by
  simp [frameBytes]; omega

/-- Length in bytes of the encoded remaining length. -/
theorem encodeRL_length_ge (n : Nat) (h : 16384 ≤ n) : 3 ≤ (encodeRemainingLengthBytes n).length := by
  rw [encodeRemainingLengthBytes, if_neg (by omega), encodeRemainingLengthBytes, if_neg (by omega)]
  have := encodeRL_length_pos (n / 128 / 128)
  simp; omega

/-- A frame fits the message the client allocates for it iff its body has at most 16381 bytes. -/
theorem frame_fits_iff (t f : Nat) (body : Bytes) :
    (frameBytes t f body).length ≤ messageCapacity body.length ↔
      1 + (encodeRemainingLengthBytes body.length).length + body.length ≤ 16384 := by
  rw [frame_length, messageCapacity, maxFragment]
  constructor
  · intro h; omega
  · intro h
    have : (encodeRemainingLengthBytes body.length).length ≤ 2 := by
      apply encodeRL_length_le 1; simp; omega
    omega

/-- C54, true part: a CONNECT whose body has at most 16381 bytes is always encoded. Missing: larger
CONNECT packets, which MQTT allows, see the negation. -/
theorem C54_connect_fits_partial (cid : Bytes) (clean : Bool) (ka : UInt16) (calls : List ConnectCall)
    (hw : calls.countP ConnectCall.isWill ≤ 1)
    (hlim : Connect.inLimits (requestedConnect cid clean ka calls)) :
    let p := buildConnect cid clean ka calls
    let c := requestedConnect cid clean ka calls
    ((∃ b', connectEncode (messageFor p.header) p = .ok b') ↔ c.body.length ≤ 16381) ∧
    ∀ b', connectEncode (messageFor p.header) p = .ok b' → IsFrame 1 0 c.body b'.data := by
  intro p c
  obtain ⟨bytes, hfr, henc, _⟩ := C03_connect_roundtrip_partial cid clean ka calls hw hlim
  have hrep := buildConnect_represents cid clean ka calls hw
  have hrl : p.header.remainingLength = c.body.length := by
    simp only [p, c]; rw [hrep]
  have hbytes : bytes = frameBytes 1 0 c.body := by
    obtain ⟨vs, hv, rfl⟩ := hfr
    rw [varint_eq hv]; rfl
  have hfit := frame_fits_iff 1 0 c.body
  constructor
  · rw [henc, messageFor, hrl, hbytes, Buf.put]
    constructor
    · rintro ⟨b', h⟩
      split at h
      · rename_i h1
        have h2 := hfit.1 (by simpa using h1)
        have := encodeRL_length_pos c.body.length
        by_cases h3 : c.body.length ≤ 16381
        · exact h3
        · have : 2 ≤ (encodeRemainingLengthBytes c.body.length).length := by
            rw [encodeRemainingLengthBytes, if_neg (by omega)]
            have := encodeRL_length_pos (c.body.length / 128)
            simp; omega
          omega
      · simp at h
    · intro h
      have : (encodeRemainingLengthBytes c.body.length).length ≤ 2 :=
        encodeRL_length_le 1 _ (by simp; omega)
      rw [if_pos (by simpa using hfit.2 (by omega))]
      exact ⟨_, rfl⟩
  · intro b' h
    rw [henc, messageFor, hrl, hbytes] at h
    rw [(Buf.put_ok h).1]
    exact isFrame_frameBytes _ _ _

/-- C54 is violated: a CONNECT within all MQTT limits (password of 20000 bytes) cannot be encoded
into the message the client allocates. -/
theorem C54_connect_violated :
    ∃ calls, calls.countP ConnectCall.isWill ≤ 1 ∧ Connect.inLimits (requestedConnect [99] true 30 calls) ∧
      ¬ ∃ b', connectEncode (messageFor (buildConnect [99] true 30 calls).header)
        (buildConnect [99] true 30 calls) = .ok b' := by
  have hl : (List.replicate 20000 (0 : UInt8)).length = 20000 := List.length_replicate
  revert hl
  generalize List.replicate 20000 (0 : UInt8) = pw
  intro hl
  have hne : pw ≠ [] := by intro h; simp [h] at hl
  have hlim : Connect.inLimits (requestedConnect [99] true 30 [.credentials [117] pw]) := by
    simp [Connect.inLimits, requestedConnect, hne, hl]
  refine ⟨[.credentials [117] pw], by simp [ConnectCall.isWill], hlim, ?_⟩
  rw [(C54_connect_fits_partial [99] true 30 _ (by simp [ConnectCall.isWill]) hlim).1, connect_body_length]
  simp [requestedConnect, hne, hl]

/-- C54, true part: SUBSCRIBE with a body of at most 16381 bytes. -/
theorem C54_subscribe_fits_partial (id : UInt16) (fs : List (Bytes × Nat))
    (hf : ∀ f ∈ fs, f.1.length ≤ 65535 ∧ f.2 ≤ 2) (hlen : (subscribeBody id fs).length ≤ 16381) :
    let p := fs.foldl (fun p f => subscribeAddTopic p f.1 f.2) (subscribeInit id)
    ∃ b', subscribeEncode (messageFor p.header) p = .ok b' ∧ IsFrame 8 2 (subscribeBody id fs) b'.data := by
  intro p
  have hrl : p.header.remainingLength = (subscribeBody id fs).length := by
    have hbuild : ∀ (fs : List (Bytes × Nat)) (p0 : SubscribePacket),
        (fs.foldl (fun p f => subscribeAddTopic p f.1 f.2) p0).header.remainingLength =
          p0.header.remainingLength + ((fs.map fun f => str f.1 ++ [UInt8.ofNat f.2]).flatten).length := by
      intro fs
      induction fs with
      | nil => intro p0; simp
      | cons f fs ih =>
        intro p0
        rw [List.foldl_cons, ih]
        simp [subscribeAddTopic, sizeofEncodedBuffer]
        omega
    simp only [p, hbuild, subscribeBody, List.length_append, u16_length]
    rfl
  obtain ⟨bytes, hfr, henc, _⟩ := C03_subscribe_roundtrip id fs hf (by omega)
  have hbytes : bytes = frameBytes 8 2 (subscribeBody id fs) := by
    obtain ⟨vs, hv, rfl⟩ := hfr
    rw [varint_eq hv]; rfl
  have h2 : (encodeRemainingLengthBytes (subscribeBody id fs).length).length ≤ 2 :=
    encodeRL_length_le 1 _ (by simp; omega)
  have hfit := (frame_fits_iff 8 2 (subscribeBody id fs)).2 (by omega)
  refine ⟨⟨messageCapacity p.header.remainingLength, [] ++ bytes⟩, ?_, hfr⟩
  rw [messageFor, henc _ (by simpa [hrl, hbytes] using hfit), Buf.put,
    if_pos (by simpa [hrl, hbytes] using hfit)]

/-- C54, true part: UNSUBSCRIBE with a body of at most 16381 bytes. -/
theorem C54_unsubscribe_fits_partial (id : UInt16) (fs : List Bytes)
    (hf : ∀ f ∈ fs, f.length ≤ 65535) (hlen : (unsubscribeBody id fs).length ≤ 16381) :
    let p := fs.foldl unsubscribeAddTopic (unsubscribeInit id)
    ∃ b', unsubscribeEncode (messageFor p.header) p = .ok b' ∧
      IsFrame 10 2 (unsubscribeBody id fs) b'.data := by
  intro p
  have hrl : p.header.remainingLength = (unsubscribeBody id fs).length := by
    have hbuild : ∀ (fs : List Bytes) (p0 : UnsubscribePacket),
        (fs.foldl unsubscribeAddTopic p0).header.remainingLength =
          p0.header.remainingLength + ((fs.map str).flatten).length := by
      intro fs
      induction fs with
      | nil => intro p0; simp
      | cons f fs ih =>
        intro p0
        rw [List.foldl_cons, ih]
        simp [unsubscribeAddTopic, sizeofEncodedBuffer]
        omega
    simp only [p, hbuild, unsubscribeBody, List.length_append, u16_length]
    rfl
  obtain ⟨bytes, hfr, henc, _⟩ := C03_unsubscribe_roundtrip id fs hf (by omega)
  have hbytes : bytes = frameBytes 10 2 (unsubscribeBody id fs) := by
    obtain ⟨vs, hv, rfl⟩ := hfr
    rw [varint_eq hv]; rfl
  have h2 : (encodeRemainingLengthBytes (unsubscribeBody id fs).length).length ≤ 2 :=
    encodeRL_length_le 1 _ (by simp; omega)
  have hfit := (frame_fits_iff 10 2 (unsubscribeBody id fs)).2 (by omega)
  refine ⟨⟨messageCapacity p.header.remainingLength, [] ++ bytes⟩, ?_, hfr⟩
  rw [messageFor, henc _ (by simpa [hrl, hbytes] using hfit), Buf.put,
    if_pos (by simpa [hrl, hbytes] using hfit)]

example : (unsubscribeBody 1 [[97, 47, 98], [99]]).length ≤ 16381 := by decide

/-- C54 and C05 are violated by UNSUBSCRIBE: with a filter of 20000 bytes (legal in MQTT) encoding
into the message the client allocates reports success, but only 4 of the 20004 announced bytes
follow the header. -/
theorem C54_unsubscribe_truncated_violated :
    ∃ (f : Bytes), f.length ≤ 65535 ∧ ∃ b',
      unsubscribeEncode (messageFor (unsubscribeAddTopic (unsubscribeInit 1) f).header)
        (unsubscribeAddTopic (unsubscribeInit 1) f) = .ok b' ∧
      ∃ vs, Varint 20004 vs ∧ b'.data = (0xA2 :: vs) ++ [0, 1, 78, 32] := by
  have hl : (List.replicate 20000 (97 : UInt8)).length = 20000 := List.length_replicate
  revert hl
  generalize List.replicate 20000 (97 : UInt8) = f
  intro hl
  refine ⟨f, by omega, ?_⟩
  have hrl : (unsubscribeAddTopic (unsubscribeInit 1) f).header.remainingLength = 20004 := by
    simp [unsubscribeAddTopic, unsubscribeInit, sizeofEncodedBuffer, hl]
  have hvl : encodeRemainingLengthBytes 20004 = [164, 156, 1] := by decide +kernel
  refine ⟨⟨16384, (0xA2 :: encodeRemainingLengthBytes 20004) ++ [0, 1, 78, 32]⟩, ?_, _, encodeRL_varint _, rfl⟩
  unfold unsubscribeEncode
  rw [fixedHeaderEncode_eq _ _ (Or.inl rfl), messageFor, hrl]
  rw [show fixedHeaderByte (unsubscribeAddTopic (unsubscribeInit 1) f).header = 0xA2 from
      fixedHeaderByte_eq 10 2 _ (by decide) (by decide),
    show messageCapacity 20004 = 16384 by decide, hvl]
  rw [Buf.put, if_pos (by decide), ok_bind, Buf.put, if_pos (by simp), ok_bind]
  simp only [unsubscribeAddTopic, unsubscribeInit, List.nil_append, List.foldl_cons, List.foldl_nil,
    encodeBufferIgnoreResult]
  rw [if_neg (by omega), hl]
  rw [Buf.put, if_pos (by decide)]
  simp only
  rw [Buf.put, if_neg (by simp [hl, be16])]
  rfl

/-! ### PUBLISH is cut into several messages -/

theorem publishChunks_flatten (cap : Nat) (hcap : 0 < cap) (data payload : Bytes) :
    (publishChunks cap hcap data payload).flatten = data ++ payload := by
  induction data, payload using publishChunks.induct cap hcap with
  | case1 data payload h =>
    rw [publishChunks, dif_pos h]
    have := List.take_append_drop (min payload.length (cap - data.length)) payload
    rw [h, List.append_nil] at this
    simp [this]
  | case2 data payload h ih =>
    rw [publishChunks, dif_neg h, List.flatten_cons, ih]
    simp only [List.nil_append, List.append_assoc, List.take_append_drop]

theorem publishChunks_bound (cap : Nat) (hcap : 0 < cap) (data payload : Bytes) (hd : data.length ≤ cap) :
    ∀ m ∈ publishChunks cap hcap data payload, m.length ≤ cap := by
  induction data, payload using publishChunks.induct cap hcap with
  | case1 data payload h =>
    rw [publishChunks, dif_pos h]
    intro m hm
    simp only [List.mem_singleton] at hm
    subst hm
    simp only [List.length_append, List.length_take]; omega
  | case2 data payload h ih =>
    rw [publishChunks, dif_neg h]
    intro m hm
    rcases List.mem_cons.1 hm with rfl | hm
    · simp only [List.length_append, List.length_take]; omega
    · exact ih (by simp) m hm

/-- PUBLISH: with a topic of at most 16375 bytes, a payload of any legal size is sent completely:
the messages put on the channel concatenate to exactly the frame, and none exceeds the fragment
size. -/
theorem C54_publish_sent_whole (retain : Bool) (qos : Nat) (dup : Bool) (topic : Bytes) (id : UInt16)
    (payload : Bytes) (hq : qos ≤ 2) (ht : topic.length ≤ 16375)
    (hlen : (publishBody topic qos id payload).length < 2 ^ 28) :
    ∃ msgs, publishSend (publishInit retain qos dup topic id payload) = .ok msgs ∧
      (∀ m ∈ msgs, m.length ≤ 16384) ∧
      IsFrame 3 (publishFlags retain qos dup) (publishBody topic qos id payload) msgs.flatten := by
  generalize hpd : publishInit retain qos dup topic id payload = p
  have hpp : p.payload = payload := by rw [← hpd]; rfl
  have hrl : p.header.remainingLength = (publishBody topic qos id payload).length := by
    rw [← hpd]
    simp only [publishInit, sizeofEncodedBuffer, publishBody]
    by_cases hq0 : qos = 0
    · simp [hq0]
    · simp [hq0, Nat.pos_of_ne_zero hq0]; omega
  obtain ⟨hdr, hhdr, hframe⟩ := publishEncodeHeaders_frame retain qos dup topic id payload hq (by omega)
  rw [hpd] at hhdr
  have hfit : hdr.length ≤ messageCapacity p.header.remainingLength := by
    have hl := congrArg List.length hframe
    rw [frame_length, List.length_append] at hl
    rw [messageCapacity, maxFragment, hrl]
    have hbl : (publishBody topic qos id payload).length =
        2 + topic.length + (if qos = 0 then 0 else 2) + payload.length := by
      simp only [publishBody, List.length_append, str_length]
      split <;> simp
    have h4 : (encodeRemainingLengthBytes (publishBody topic qos id payload).length).length ≤ 4 :=
      encodeRL_length_le 3 _ (by simpa using hlen)
    by_cases h5 : (publishBody topic qos id payload).length < 16384
    · have : (encodeRemainingLengthBytes (publishBody topic qos id payload).length).length ≤ 2 :=
        encodeRL_length_le 1 _ (by simpa using h5)
      split at hbl <;> omega
    · split at hbl <;> omega
  refine ⟨publishChunks (messageCapacity p.header.remainingLength)
    (by simp [messageCapacity, maxFragment]; omega) hdr p.payload, ?_, ?_, ?_⟩
  · unfold publishSend
    rw [hhdr, messageFor, Buf.put, if_pos (by simpa using hfit)]
    rfl
  · intro m hm
    have := publishChunks_bound _ _ _ _ hfit m hm
    have : messageCapacity p.header.remainingLength ≤ 16384 := Nat.min_le_left _ _
    omega
  · rw [publishChunks_flatten, hpp, ← hframe]
    exact isFrame_frameBytes _ _ _

example (payload : Bytes) (h : payload.length = 100000) :
    (publishBody [116] 1 7 payload).length < 2 ^ 28 := by
  simp [publishBody, h]

end Mqtt.Props
