import Verif.Lemmas.Stream5

/-!
C24: the MQTT 5 incoming stream. The receiver (`on_packet_received`) is an arbitrary function on an
arbitrary state, which may also replace the alias resolver; "the same world afterwards" says that the same
packets were handed over in the same order (take the state to be the list of packets seen).
-/
namespace Mqtt.Props.V5
open Mqtt Mqtt.V5

variable {σ : Type} (handle : OnPacket σ)

/-- Successive calls of `aws_mqtt5_decoder_on_data_received`, whatever they return; the first component
says whether all of them succeeded. -/
def feed : Decoder → World σ → List Bytes → Bool × Decoder × World σ
  | d, w, [] => (true, d, w)
  | d, w, c :: cs =>
    let r := onDataReceived handle d w c
    let r' := feed r.2.1 r.2.2 cs
    (r.1 && r'.1, r'.2)

/-- C24: after an error no call delivers anything or changes the state, whatever data arrives. -/
theorem C24_error_is_final (d : Decoder) (w : World σ) (data : Bytes) (h : d.state = .fatalError) :
    onDataReceived handle d w data = (false, d, w) := by
  have hs : step handle d w data = (.error, d, w, data) := by simp [step, h]
  rw [onData_error handle hs]
  cases d; simp_all

theorem feed_fatal (cs : List Bytes) (d : Decoder) (w : World σ) (h : d.state = .fatalError) :
    feed handle d w cs = (cs.isEmpty, d, w) := by
  induction cs with
  | nil => rfl
  | cons c cs ih => simp [feed, C24_error_is_final handle d w c h, ih]

theorem feed_eq (cs : List Bytes) : ∀ (p : Bytes) (w : World σ), Holdable p → parse handle w p = .pending w p →
    match parse handle w (p ++ cs.flatten) with
    | .pending w' p' => feed handle (ofPending p) w cs = (true, ofPending p', w')
    | .error w' => ∃ d', feed handle (ofPending p) w cs = (false, d', w') ∧ d'.state = .fatalError := by
  induction cs with
  | nil => intro p w _ hp; simp [hp, feed]
  | cons c cs ih =>
    intro p w hp _
    rw [List.flatten_cons, ← List.append_assoc, parse_append]
    have h1 := onData_eq handle p c w hp
    unfold Agrees at h1
    cases hpc : parse handle w (p ++ c) with
    | error w' =>
      simp only [hpc] at h1 ⊢
      obtain ⟨d', h2, h3⟩ := h1
      refine ⟨d', ?_, h3⟩
      simp [feed, h2, feed_fatal handle cs d' w' h3]
    | pending w1 p1 =>
      simp only [hpc] at h1 ⊢
      have hh := parse_pending_holdable handle _ _ _ _ hpc
      have hidem : parse handle w1 p1 = .pending w1 p1 := by
        have := parse_append handle (p ++ c) [] w
        rw [List.append_nil, hpc] at this
        simpa using this.symm
      have h2 := ih p1 w1 hh hidem
      cases hq : parse handle w1 (p1 ++ cs.flatten) with
      | pending w2 p2 => simp only [hq] at h2 ⊢; simp [feed, h1, h2]
      | error w2 =>
        simp only [hq] at h2 ⊢
        obtain ⟨d', h2, h3⟩ := h2
        exact ⟨d', by simp [feed, h1, h2], h3⟩

theorem feed_init (cs : List Bytes) (w : World σ) :
    match parse handle w cs.flatten with
    | .pending w' p' => feed handle Decoder.init w cs = (true, ofPending p', w')
    | .error w' => ∃ d', feed handle Decoder.init w cs = (false, d', w') ∧ d'.state = .fatalError := by
  have := feed_eq handle cs [] w trivial (parse_nil handle w)
  rw [List.nil_append] at this
  exact this

/-- C24: however the stream is cut into chunks, the outcome and everything the receiver saw are the same
as for the stream in one piece; after success the decoder is in the same state, and after failure it is in
the error state. -/
theorem C24_chunking_independent (chunks : List Bytes) (w : World σ) :
    ∃ ok d d' w', feed handle Decoder.init w chunks = (ok, d, w') ∧
      onDataReceived handle Decoder.init w chunks.flatten = (ok, d', w') ∧
      (ok = true → d = d') ∧ (ok = false → d.state = .fatalError ∧ d'.state = .fatalError) := by
  have h1 := feed_init handle chunks w
  have h2 := onData_eq handle [] chunks.flatten w trivial
  unfold Agrees at h2
  rw [List.nil_append] at h2
  cases hp : parse handle w chunks.flatten with
  | pending w' p' =>
    simp only [hp] at h1 h2
    exact ⟨true, _, _, w', h1, h2, fun _ => rfl, by simp⟩
  | error w' =>
    simp only [hp] at h1 h2
    obtain ⟨d, hd, hds⟩ := h1
    obtain ⟨d', hd', hds'⟩ := h2
    exact ⟨false, d, d', w', hd, hd', by simp, fun _ => ⟨hds, hds'⟩⟩

/-- C24, two chunkings of the same stream. -/
theorem C24_same_stream_same_result (cs1 cs2 : List Bytes) (h : cs1.flatten = cs2.flatten) (w : World σ) :
    (feed handle Decoder.init w cs1).1 = (feed handle Decoder.init w cs2).1 ∧
    (feed handle Decoder.init w cs1).2.2 = (feed handle Decoder.init w cs2).2.2 := by
  obtain ⟨r1, d1, d1', w1, h1, h1', _⟩ := C24_chunking_independent handle cs1 w
  obtain ⟨r2, d2, d2', w2, h2, h2', _⟩ := C24_chunking_independent handle cs2 w
  rw [h, h2'] at h1'
  simp only [Prod.mk.injEq] at h1'
  simp [h1, h2, h1'.1, h1'.2.2]

/-- C24: an error leaves the decoder in the state that refuses everything, from whatever state. -/
theorem C24_error_sticks (d : Decoder) (w : World σ) (data : Bytes)
    (h : (onDataReceived handle d w data).1 = false) : (onDataReceived handle d w data).2.1.state = .fatalError := by
  induction hm : V5.measure d data using Nat.strongRecOn generalizing d w data with
  | ind k ih =>
    cases hs : (step handle d w data).1 with
    | success =>
      have e := onData_success handle (d' := (step handle d w data).2.1) (w' := (step handle d w data).2.2.1)
        (rest := (step handle d w data).2.2.2) (by rw [← hs])
      rw [e] at h ⊢
      exact ih _ (by rw [← hm]; exact step_decreases handle d w data hs) _ _ _ h rfl
    | more =>
      rw [onData_more handle (d' := (step handle d w data).2.1) (w' := (step handle d w data).2.2.1)
        (rest := (step handle d w data).2.2.2) (by rw [← hs])] at h
      simp at h
    | error =>
      rw [onData_error handle (d' := (step handle d w data).2.1) (w' := (step handle d w data).2.2.1)
        (rest := (step handle d w data).2.2.2) (by rw [← hs])]

/-- C24: a reset makes the decoder as good as new. -/
theorem C24_reset (d : Decoder) : d.reset = Decoder.init := rfl

/-- A receiver that records what it sees and accepts everything. -/
def recorder : OnPacket (List Received) := fun w p => ({ w with receiver := w.receiver ++ [p] }, true)

/-- PINGRESP, then a CONNACK cut in the middle of its header and body, then the start of a third packet. -/
example : feed recorder Decoder.init ⟨[], none⟩ [[0xD0], [0, 0x20, 3], [0], [0, 0, 0x40]] =
    (true, ⟨.readRemainingLength, [], 0x40, 0⟩, ⟨[.pingresp, .connack {}], none⟩) := by decide +kernel

/-- A packet type a server does not send, after a good packet. -/
example : feed recorder Decoder.init ⟨[], none⟩ [[0xD0, 0, 0x10], [0xD0, 0]] =
    (false, ⟨.fatalError, [0x10], 0, 0⟩, ⟨[.pingresp], none⟩) := by decide +kernel

end Mqtt.Props.V5
