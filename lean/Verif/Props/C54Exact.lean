import Verif.Props.C05

/-! C54: the exact boundary for SUBSCRIBE and UNSUBSCRIBE, and what happens beyond it. -/
namespace Mqtt.Props
open Mqtt Mqtt.Spec

/-- A message holds no more than its capacity. -/
def Within (cap : Nat) (b : Buf) : Prop := b.cap = cap ∧ b.data.length ≤ cap

theorem Within.put {cap : Nat} {b b' : Buf} {xs : Bytes} (h : Within cap b) (hp : b.put xs = .ok b') : Within cap b' := by
  unfold Buf.put at hp
  split at hp
  · rename_i hl
    cases hp
    refine ⟨h.1, ?_⟩
    rw [h.1] at hl
    simpa using hl
  · cases hp

theorem Within.ignore {cap : Nat} {b : Buf} (h : Within cap b) (s : Bytes) : Within cap (encodeBufferIgnoreResult b s) := by
  unfold encodeBufferIgnoreResult
  split
  · exact h
  · split
    · exact h
    · rename_i b1 h1
      split
      · exact h.put h1
      · rename_i b2 h2
        exact (h.put h1).put h2

theorem Within.loop {cap : Nat} (ss : List Subscription) : ∀ {b b' : Buf}, Within cap b → subscribeEncodeLoop b ss = .ok b' → Within cap b' := by
  induction ss with
  | nil => intro b b' h hp; cases hp; exact h
  | cons s ss ih =>
    intro b b' h hp
    obtain ⟨b1, h1, h2⟩ := bind_ok hp
    exact ih ((h.ignore s.filter).put h1) h2

theorem Within.all {cap : Nat} (fs : List Bytes) : ∀ {b : Buf}, Within cap b → Within cap (fs.foldl encodeBufferIgnoreResult b) := by
  induction fs with
  | nil => intro b h; exact h
  | cons f fs ih => intro b h; exact ih (h.ignore f)

theorem Within.message (h : FixedHeader) : Within (messageCapacity h.remainingLength) (messageFor h) := ⟨rfl, Nat.zero_le _⟩

theorem subscribe_within {p : SubscribePacket} {b' : Buf} (hf : packetHasFlags p.header.packetType = true)
    (h : subscribeEncode (messageFor p.header) p = .ok b') : b'.data.length ≤ 16384 := by
  obtain ⟨b1, h1, h2⟩ := bind_ok h
  obtain ⟨b2, h3, h4⟩ := bind_ok h2
  rw [fixedHeaderEncode_eq _ _ (.inl hf)] at h1
  have := (Within.loop p.filters (((Within.message p.header).put h1).put h3) h4).2
  unfold messageCapacity maxFragment at this
  omega

theorem unsubscribe_within {p : UnsubscribePacket} {b' : Buf} (hf : packetHasFlags p.header.packetType = true)
    (h : unsubscribeEncode (messageFor p.header) p = .ok b') : b'.data.length ≤ 16384 := by
  obtain ⟨b1, h1, h2⟩ := bind_ok h
  obtain ⟨b2, h3, h4⟩ := bind_ok h2
  rw [fixedHeaderEncode_eq _ _ (.inl hf)] at h1
  cases h4
  have := (Within.all p.filters (((Within.message p.header).put h1).put h3)).2
  unfold messageCapacity maxFragment at this
  omega

/-- A frame of at most 16384 bytes has a body of at most 16381. -/
theorem frame_body {t f : Nat} {body bytes : Bytes} (h : IsFrame t f body bytes) (hl : bytes.length ≤ 16384) : body.length ≤ 16381 := by
  obtain ⟨vs, hv, rfl⟩ := h
  rw [varint_eq hv] at hl
  simp only [List.length_append, List.length_cons] at hl
  by_cases hb : 16384 ≤ body.length
  · omega
  · by_cases h2 : body.length < 128
    · omega
    · have : 2 ≤ (encodeRemainingLengthBytes body.length).length := by
        rw [encodeRemainingLengthBytes, if_neg (by omega)]
        have := encodeRL_length_pos (body.length / 128)
        simp; omega
      omega

theorem subscribe_header (fs : List (Bytes × Nat)) : ∀ p : SubscribePacket,
    (fs.foldl (fun p f => subscribeAddTopic p f.1 f.2) p).header.packetType = p.header.packetType := by
  induction fs with
  | nil => intro p; rfl
  | cons f fs ih => intro p; rw [List.foldl_cons, ih]; rfl

theorem unsubscribe_header (fs : List Bytes) : ∀ p : UnsubscribePacket,
    (fs.foldl unsubscribeAddTopic p).header.packetType = p.header.packetType ∧
      (fs.foldl unsubscribeAddTopic p).header.remainingLength = p.header.remainingLength + ((fs.map str).flatten).length := by
  induction fs with
  | nil => intro p; simp
  | cons f fs ih =>
    intro p
    rw [List.foldl_cons, (ih _).1, (ih _).2]
    refine ⟨rfl, ?_⟩
    simp [unsubscribeAddTopic, sizeofEncodedBuffer]
    omega

/-- **C54, SUBSCRIBE**: a SUBSCRIBE is encoded completely if and only if its body has at most 16381 bytes. -/
theorem C54_subscribe_exact_partial (id : UInt16) (fs : List (Bytes × Nat)) (hf : ∀ f ∈ fs, f.1.length ≤ 65535 ∧ f.2 ≤ 2) :
    let p := fs.foldl (fun p f => subscribeAddTopic p f.1 f.2) (subscribeInit id)
    (∃ b', subscribeEncode (messageFor p.header) p = .ok b' ∧ IsFrame 8 2 (subscribeBody id fs) b'.data) ↔
      (subscribeBody id fs).length ≤ 16381 := by
  intro p
  refine ⟨?_, C54_subscribe_fits_partial id fs hf⟩
  rintro ⟨b', h1, h2⟩
  refine frame_body h2 (subscribe_within ?_ h1)
  rw [subscribe_header]
  rfl

/-- **C54, UNSUBSCRIBE**: likewise. -/
theorem C54_unsubscribe_exact_partial (id : UInt16) (fs : List Bytes) (hf : ∀ f ∈ fs, f.length ≤ 65535) :
    let p := fs.foldl unsubscribeAddTopic (unsubscribeInit id)
    (∃ b', unsubscribeEncode (messageFor p.header) p = .ok b' ∧ IsFrame 10 2 (unsubscribeBody id fs) b'.data) ↔
      (unsubscribeBody id fs).length ≤ 16381 := by
  intro p
  refine ⟨?_, C54_unsubscribe_fits_partial id fs hf⟩
  rintro ⟨b', h1, h2⟩
  refine frame_body h2 (unsubscribe_within ?_ h1)
  rw [(unsubscribe_header fs _).1]
  rfl

/-- **C54 is violated by every longer UNSUBSCRIBE** that MQTT can express: encoding reports success, and what is sent is not the packet. -/
theorem C54_unsubscribe_all_violated (id : UInt16) (fs : List Bytes) (hl : 16381 < (unsubscribeBody id fs).length)
    (hm : (unsubscribeBody id fs).length ≤ 268435455) :
    let p := fs.foldl unsubscribeAddTopic (unsubscribeInit id)
    ∃ b', unsubscribeEncode (messageFor p.header) p = .ok b' ∧ ¬ IsFrame 10 2 (unsubscribeBody id fs) b'.data := by
  intro p
  have hrl : p.header.remainingLength = (unsubscribeBody id fs).length := by
    simp only [p, (unsubscribe_header fs _).2, unsubscribeBody, List.length_append, u16_length]
    rfl
  have hty : packetHasFlags p.header.packetType = true := by
    simp only [p, (unsubscribe_header fs _).1]
    rfl
  have h4 : (encodeRemainingLengthBytes p.header.remainingLength).length ≤ 4 := encodeRL_length_le 3 _ (by rw [hrl]; simp; omega)
  have hcap : (messageFor p.header).cap = 16384 := by
    simp only [messageFor, messageCapacity, maxFragment, hrl]
    omega
  have hex : ∃ b', unsubscribeEncode (messageFor p.header) p = .ok b' := by
    unfold unsubscribeEncode
    rw [fixedHeaderEncode_eq _ _ (.inl hty), Buf.put, if_pos (by rw [hcap]; simp [messageFor]; omega), ok_bind, Buf.put,
      if_pos (by simp only [hcap]; simp [messageFor, be16]; omega), ok_bind]
    exact ⟨_, rfl⟩
  obtain ⟨b', hb⟩ := hex
  refine ⟨b', hb, fun h => ?_⟩
  have := frame_body h (unsubscribe_within hty hb)
  omega

/-- The hypotheses are met: a filter of 20000 bytes. -/
example : ∃ fs : List Bytes, 16381 < (unsubscribeBody 1 fs).length ∧ (unsubscribeBody 1 fs).length ≤ 268435455 ∧
    ∀ f ∈ fs, f.length ≤ 65535 := by
  have hl : (List.replicate 20000 (97 : UInt8)).length = 20000 := List.length_replicate
  revert hl
  generalize List.replicate 20000 (97 : UInt8) = f
  intro hl
  exact ⟨[f], by simp [unsubscribeBody, str, u16_length, hl], by simp [unsubscribeBody, str, u16_length, hl], by simp [hl]⟩

end Mqtt.Props
