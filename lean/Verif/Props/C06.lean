import Verif.Lemmas.Decoder311

/-!
C06, C07: the 3.1.1 incoming stream. The packet handlers are an arbitrary function with an arbitrary
state, so "the same handler state" says that the same packets were handed over in the same order
(take the state to be the list of packets seen).
-/
namespace Mqtt.Props
open Mqtt Mqtt.Spec Mqtt.Decoder311

variable {σ : Type} (handle : σ → Nat → Bytes → σ × Bool)

/-- Successive calls of `aws_mqtt311_decoder_on_bytes_received`, stopping at the first call that
does not succeed (the channel is shut down then, client_channel_handler.c:603-634). -/
def feed : Decoder → σ → List Bytes → Result × Decoder × σ
  | d, s, [] => (.success, d, s)
  | d, s, c :: cs => match onBytesReceived handle d s c with
    | (.success, d', s') => feed d' s' cs
    | r => r

/-- The stream view of a run: outcome, handler state, and the bytes still held. -/
theorem feed_eq (cs : List Bytes) : ∀ (p : Bytes) (s : σ), Holdable p →
    match parse handle s (p ++ cs.flatten) with
    | .pending s' p' => feed handle (ofPending p) s cs = (.success, ofPending p', s') ∨
        (cs = [] ∧ s' = s ∧ p' = p) ∨ cs = []
    | .error s' => cs = [] ∨ ∃ d', feed handle (ofPending p) s cs = (.failure, d', s') ∧
        d'.state = .protocolError := by
  induction cs with
  | nil => intro p s _; split <;> simp
  | cons c cs ih =>
    intro p s hp
    rw [List.flatten_cons, ← List.append_assoc, parse_append]
    have h1 := onBytes_eq handle p c s hp
    cases hpc : parse handle s (p ++ c) with
    | error s' =>
      simp only [hpc] at h1 ⊢
      obtain ⟨d', h2, h3⟩ := h1
      right
      exact ⟨d', by simp [feed, h2], h3⟩
    | pending s1 p1 =>
      simp only [hpc] at h1 ⊢
      have hh := parse_pending_holdable handle _ _ _ _ hpc
      have h2 := ih p1 s1 hh
      cases cs with
      | nil =>
        have hidem : parse handle s1 p1 = .pending s1 p1 := by
          have := parse_append handle (p ++ c) [] s
          rw [List.append_nil, hpc] at this
          simpa using this.symm
        simp only [List.flatten_nil, List.append_nil, hidem]
        left; simp [feed, h1]
      | cons c2 cs2 =>
        cases hq : parse handle s1 (p1 ++ (c2 :: cs2).flatten) with
        | pending s2 p2 =>
          simp only [hq] at h2 ⊢
          left
          simp only [reduceCtorEq, false_and, or_false] at h2
          rw [feed, h1]; exact h2
        | error s2 =>
          simp only [hq, reduceCtorEq, false_or] at h2 ⊢
          rw [feed, h1]; exact h2

theorem feed_init (cs : List Bytes) (s : σ) :
    match parse handle s cs.flatten with
    | .pending s' p' => feed handle Decoder.init s cs = (.success, ofPending p', s')
    | .error s' => ∃ d', feed handle Decoder.init s cs = (.failure, d', s') ∧ d'.state = .protocolError := by
  cases cs with
  | nil => simp [parse_nil, feed, ofPending]
  | cons c cs =>
    have := feed_eq handle (c :: cs) [] s trivial
    rw [List.nil_append] at this
    split <;> simp_all [ofPending]

/-- C06: however the stream is cut into chunks, the outcome and everything the packet handlers saw
are the same as for the stream in one piece; after success the decoder is in the same state, after
failure both are in the error state, and no fatal assertion fires. -/
theorem C06_chunking_independent (chunks : List Bytes) (s : σ) :
    ∃ res d d' s', feed handle Decoder.init s chunks = (res, d, s') ∧
      onBytesReceived handle Decoder.init s chunks.flatten = (res, d', s') ∧
      res ≠ .abort ∧ (res = .success → d = d') ∧
      (res = .failure → d.state = .protocolError ∧ d'.state = .protocolError) := by
  have h1 := feed_init handle chunks s
  have h2 := onBytes_eq handle [] chunks.flatten s trivial
  rw [List.nil_append] at h2
  cases hp : parse handle s chunks.flatten with
  | pending s' p' =>
    simp only [hp] at h1 h2
    exact ⟨.success, _, _, s', h1, h2, by decide, fun _ => rfl, by simp⟩
  | error s' =>
    simp only [hp] at h1 h2
    obtain ⟨d, hd, hds⟩ := h1
    obtain ⟨d', hd', hds'⟩ := h2
    exact ⟨.failure, d, d', s', hd, hd', by decide, by simp, fun _ => ⟨hds, hds'⟩⟩

/-- C06, two chunkings of the same stream. -/
theorem C06_same_stream_same_result (cs1 cs2 : List Bytes) (h : cs1.flatten = cs2.flatten) (s : σ) :
    (feed handle Decoder.init s cs1).1 = (feed handle Decoder.init s cs2).1 ∧
    (feed handle Decoder.init s cs1).2.2 = (feed handle Decoder.init s cs2).2.2 := by
  obtain ⟨r1, d1, d1', s1, h1, h1', _⟩ := C06_chunking_independent handle cs1 s
  obtain ⟨r2, d2, d2', s2, h2, h2', _⟩ := C06_chunking_independent handle cs2 s
  rw [h, h2'] at h1'
  simp only [Prod.mk.injEq] at h1'
  simp [h1, h2, h1'.1, h1'.2.2]

/-- Handing whole packets one after the other to the handlers, stopping at the first failure. -/
def deliver : σ → List Bytes → σ × Bool
  | s, [] => (s, true)
  | s, f :: fs =>
    let r := handle s ((f.headD 0).toNat / 16) f
    if r.2 then deliver r.1 fs else (r.1, false)

theorem packetType_eq (b : UInt8) : packetType b = b.toNat / 16 := by
  simp [packetType, UInt8.toNat_shiftRight, Nat.shiftRight_eq_div_pow]

theorem parse_frame (s : σ) {b1 : UInt8} {body f : Bytes} (hf : IsReceivedFrame b1 body f) (rest : Bytes) :
    parse handle s (f ++ rest) =
      if (handle s ((f.headD 0).toNat / 16) f).2 then parse handle (handle s ((f.headD 0).toNat / 16) f).1 rest
      else .error (handle s ((f.headD 0).toNat / 16) f).1 := by
  obtain ⟨vs, hv, rfl⟩ := hf
  have hd := decodeRL_lengthField hv (body ++ rest)
  rw [← List.append_assoc] at hd
  have hcons : (b1 :: vs ++ body) ++ rest = b1 :: (vs ++ body ++ rest) := by simp
  have e1 : (b1 :: (vs ++ body ++ rest)).length - (body ++ rest).length + body.length =
      (b1 :: vs ++ body).length := by simp; omega
  rw [hcons, parse_ok _ _ _ hd, if_neg (by simp), e1, ← hcons, List.take_left, List.drop_left, packetType_eq]
  rfl

/-- A strict prefix of some packet. -/
def Incomplete (tail : Bytes) : Prop :=
  ∃ b1 body f ext, IsReceivedFrame b1 body f ∧ f = tail ++ ext ∧ ext ≠ []

theorem parse_incomplete (s : σ) {tail : Bytes} (h : Incomplete tail) : parse handle s tail = .pending s tail := by
  obtain ⟨b1, body, f, ext, ⟨vs, hv, rfl⟩, he, hne⟩ := h
  cases tail with
  | nil => exact parse_nil handle s
  | cons b q =>
    simp only [List.cons_append, List.cons.injEq] at he
    have hd := decodeRL_lengthField hv body
    rw [he.2] at hd
    cases hq : decodeRemainingLength q with
    | error e =>
      rcases decodeRL_err hq with rfl | rfl
      · exact parse_short handle s b hq
      · rw [decodeRL_invalid_append hq ext] at hd; simp at hd
    | ok v =>
      obtain ⟨n, r⟩ := v
      rw [decodeRL_append hq ext] at hd
      simp only [Except.ok.injEq, Prod.mk.injEq] at hd
      rw [parse_ok handle s b hq, if_pos]
      rw [hd.1, ← hd.2]
      have := List.length_pos_iff.2 hne
      simp; omega

/-- C07: when the stream is a sequence of complete packets followed by an incomplete one, in any
chunks, exactly those packets are handed over, byte for byte and in order (up to and including the
first one a handler rejects); if none is rejected the calls succeed and the decoder holds exactly
the incomplete tail. -/
theorem C07_exact_packets (frames : List Bytes) (tail : Bytes) (chunks : List Bytes) (s : σ)
    (hframes : ∀ f ∈ frames, ∃ b1 body, IsReceivedFrame b1 body f) (htail : Incomplete tail)
    (hstream : chunks.flatten = frames.flatten ++ tail) :
    (feed handle Decoder.init s chunks).2.2 = (deliver handle s frames).1 ∧
    ((deliver handle s frames).2 = true →
      (feed handle Decoder.init s chunks).1 = .success ∧
      (feed handle Decoder.init s chunks).2.1.packetBuffer = tail) ∧
    ((deliver handle s frames).2 = false → (feed handle Decoder.init s chunks).1 = .failure) := by
  have key : ∀ (frames : List Bytes) (s : σ), (∀ f ∈ frames, ∃ b1 body, IsReceivedFrame b1 body f) →
      parse handle s (frames.flatten ++ tail) =
        if (deliver handle s frames).2 then .pending (deliver handle s frames).1 tail
        else .error (deliver handle s frames).1 := by
    intro frames
    induction frames with
    | nil => intro s _; simp [deliver, parse_incomplete handle s htail]
    | cons f fs ih =>
      intro s hf
      obtain ⟨b1, body, hfr⟩ := hf f (by simp)
      rw [List.flatten_cons, List.append_assoc, parse_frame handle s hfr]
      by_cases hh : (handle s ((f.headD 0).toNat / 16) f).2 = true
      · rw [if_pos hh, ih _ (fun g hg => hf g (by simp [hg]))]
        simp only [deliver, hh, if_true]
      · simp only [deliver, hh]
        simp
  have h1 := feed_init handle chunks s
  rw [hstream, key frames s hframes] at h1
  by_cases hd : (deliver handle s frames).2 = true
  · simp only [hd, if_true] at h1
    rw [h1]
    refine ⟨rfl, fun _ => ⟨rfl, ?_⟩, by simp [hd]⟩
    cases tail with
    | nil => rfl
    | cons b q => simp only [ofPending]; split <;> rfl
  · simp only [hd] at h1
    obtain ⟨d', h2, _⟩ := h1
    rw [h2]
    exact ⟨rfl, by simp [hd], fun _ => rfl⟩

/-- Two packets and one byte of a third, in awkward chunks. -/
example : (∀ f ∈ [[0x20, 2, 0, 0], [0xD0, 0]], ∃ b1 body, IsReceivedFrame b1 body f) ∧ Incomplete [0x30] ∧
    [[0x20], [2, 0], [], [0, 0xD0, 0, 0x30]].flatten = [[0x20, 2, 0, 0], [0xD0, 0]].flatten ++ ([0x30] : Bytes) := by
  refine ⟨?_, ?_, by decide⟩
  · intro f hf
    simp only [List.mem_cons, List.not_mem_nil, or_false] at hf
    rcases hf with rfl | rfl
    · exact ⟨0x20, [0, 0], [2], ⟨[], 2, rfl, by decide, by simp, by decide, by decide⟩, rfl⟩
    · exact ⟨0xD0, [], [0], ⟨[], 0, rfl, by decide, by simp, by decide, by decide⟩, rfl⟩
  · exact ⟨0x30, [], [0x30, 0], [0], ⟨[0], ⟨[], 0, rfl, by decide, by simp, by decide, by decide⟩, rfl⟩, rfl, by simp⟩

/-- C07: after a failure no call delivers anything or changes the state, whatever data arrives,
until `aws_mqtt311_decoder_reset_for_new_connection`. -/
theorem C07_failure_is_final (d : Decoder) (s : σ) (data : Bytes) (h : d.state = .protocolError) :
    onBytesReceived handle d s data = (.failure, d, s) := by
  rw [onBytesReceived]
  have hs : step handle d s data = (.protocolError, d, s, data) := by simp [step, h]
  rw [hs]
  simp only [Prod.mk.injEq, true_and, and_true]
  cases d; simp_all

/-- The hypothesis of the previous theorem is reached: a rejected packet, or four continuation bytes. -/
example : (onBytesReceived (σ := Nat) (fun s _ _ => (s + 1, true)) Decoder.init 0
    [0x30, 0x80, 0x80, 0x80, 0x80]).2.1.state = .protocolError := by decide +kernel

end Mqtt.Props
