import Verif.FixedHeader

/-!
Model of /repo/source/mqtt311_decoder.c: framing of the incoming 3.1.1 byte stream.

The table of packet handlers is abstracted by one function `handle` on a handler state `σ`: it is
called with the packet type and the bytes of one whole packet and says whether it succeeded. A NULL
table entry (43-53) is a handler that fails. Handlers do not call back into the decoder.
Fatal assertions are the outcome `abort`.
-/
namespace Mqtt.Decoder311

/-- `enum aws_mqtt_311_decoder_state_type` (mqtt311_decoder.h:24-55). -/
inductive DState where
  | readFirstByte
  | readRemainingLength
  | readBody
  | protocolError
deriving DecidableEq, Repr

/-- `struct aws_mqtt311_decoder` (mqtt311_decoder.h:76-89) without its configuration. -/
structure Decoder where
  state : DState
  totalPacketLength : Nat
  packetBuffer : Bytes
deriving DecidableEq, Repr

/-- `s_aws_mqtt311_decoder_reset` (10-14); also the state after `aws_mqtt311_decoder_init` (16-25)
and after `aws_mqtt311_decoder_reset_for_new_connection` (209-211). -/
def Decoder.init : Decoder := { state := .readFirstByte, totalPacketLength := 0, packetBuffer := [] }

/-- `enum aws_mqtt311_decoding_directive` (37) plus a failed fatal assertion. -/
inductive Directive where
  | continue
  | outOfData
  | protocolError
  | abort
deriving DecidableEq, Repr

/-- `aws_mqtt_get_packet_type` (fixed_header.c:62-64). -/
def packetType (b : UInt8) : Nat := (b >>> 4).toNat

variable {σ : Type} (handle : σ → Nat → Bytes → σ × Bool)

/-- `s_aws_mqtt311_decoder_safe_packet_handle` (43-53) followed by
`aws_result_to_mqtt311_decoding_directive` (39-41). -/
def handlePacket (s : σ) (packet : Bytes) : σ × Directive :=
  match packet with
  | [] => (s, .protocolError)                                       -- never called with an empty cursor
  | b :: _ =>
    let r := handle s (packetType b) packet
    (r.1, if r.2 then .continue else .protocolError)

/-- `s_handle_decoder_read_first_byte` (55-106). Returns directive, decoder, handler state, and the
data not yet consumed. -/
def readFirstByte (d : Decoder) (s : σ) (data : Bytes) : Directive × Decoder × σ × Bytes :=
  if d.packetBuffer.length ≠ 0 then (.abort, d, s, data)            -- 58
  else match data with
    | [] => (.outOfData, d, s, data)                                -- 59-61
    | byte :: rest =>
      match fixedHeaderDecode data with
      | .ok (h, temp) =>
        if temp.length ≥ h.remainingLength then                     -- 75-76
          let wholeLen := (data.length - temp.length) + h.remainingLength  -- 79-81
          let r := handlePacket handle s (data.take wholeLen)       -- 90-92
          (r.2, d, r.1, data.drop wholeLen)                         -- 84
        else
          (.continue, { d with packetBuffer := d.packetBuffer ++ [byte], state := .readRemainingLength }, s, rest)
      | .error _ =>                                                 -- 99-105
        (.continue, { d with packetBuffer := d.packetBuffer ++ [byte], state := .readRemainingLength }, s, rest)

/-- `s_handle_decoder_read_remaining_length` (108-142). -/
def readRemainingLength (d : Decoder) (s : σ) (data : Bytes) : Directive × Decoder × σ × Bytes :=
  if d.totalPacketLength ≠ 0 then (.abort, d, s, data)              -- 111
  else match data with
    | [] => (.outOfData, d, s, data)                                -- 112-114
    | byte :: rest =>
      let d := { d with packetBuffer := d.packetBuffer ++ [byte] }  -- 116-118
      match decodeRemainingLength (d.packetBuffer.drop 1) with      -- 120-124
      | .error .shortBuffer => (.continue, d, s, rest)              -- 126-127
      | .error _ => (.protocolError, d, s, rest)                    -- 128-129
      | .ok (rl, _) =>
        let total := rl + d.packetBuffer.length                     -- 137
        if total = 0 then (.abort, d, s, rest)                      -- 138
        else (.continue, { d with totalPacketLength := total, state := .readBody }, s, rest)

/-- `s_handle_decoder_read_body` (144-169) with `s_aws_mqtt311_decoder_reset_for_new_packet` (31-35). -/
def readBody (d : Decoder) (s : σ) (data : Bytes) : Directive × Decoder × σ × Bytes :=
  if d.totalPacketLength = 0 then (.abort, d, s, data)              -- 147
  else
    let amount := min (subSize d.totalPacketLength d.packetBuffer.length) data.length   -- 149-150
    let rest := data.drop amount
    let d := { d with packetBuffer := d.packetBuffer ++ data.take amount }              -- 152-153
    if d.packetBuffer.length = d.totalPacketLength then             -- 155
      let r := handlePacket handle s d.packetBuffer                 -- 158-162
      if r.2 = .continue then (.continue, Decoder.init, r.1, rest)  -- 164-165
      else (.protocolError, d, r.1, rest)
    else (.outOfData, d, s, rest)                                   -- 168

/-- The switch of `aws_mqtt311_decoder_on_bytes_received` (176-192). -/
def step (d : Decoder) (s : σ) (data : Bytes) : Directive × Decoder × σ × Bytes :=
  match d.state with
  | .readFirstByte => readFirstByte handle d s data
  | .readRemainingLength => readRemainingLength d s data
  | .readBody => readBody handle d s data
  | .protocolError => (.protocolError, d, s, data)

/-- Every `continue` makes progress: it consumes data, or leaves the body state. -/
def measure (d : Decoder) (data : Bytes) : Nat := 2 * data.length + (if d.state = .readBody then 1 else 0)

theorem step_decreases (d : Decoder) (s : σ) (data : Bytes)
    (h : (step handle d s data).1 = .continue) :
    measure (step handle d s data).2.1 (step handle d s data).2.2.2 < measure d data := by
  revert h
  unfold step
  split
  · rename_i hs
    unfold readFirstByte
    split
    · simp
    · split
      · simp
      · rename_i byte rest
        split
        · rename_i h temp hd
          have hl : temp.length < (byte :: rest).length := by
            simp only [fixedHeaderDecode, readU8, orShort, bind, Except.bind] at hd
            split at hd
            · simp at hd
            · rename_i v hv
              have hdl : ∀ (cur : Bytes) (m acc n : Nat) (r : Bytes),
                  decodeRemainingLengthLoop m acc cur = .ok (n, r) → r.length < cur.length := by
                intro cur
                induction cur with
                | nil => intro m acc n r h; simp [decodeRemainingLengthLoop] at h
                | cons b cur ih =>
                  intro m acc n r h
                  simp only [decodeRemainingLengthLoop] at h
                  split at h
                  · simp at h; simp [h.2]
                  · split at h
                    · simp at h
                    · have := ih _ _ _ _ h; simp; omega
              have := hdl _ _ _ _ _ hv
              split at hd
              · simp at hd
              · split at hd
                · simp at hd
                · simp at hd; simp [← hd.2]; omega
          split
          · intro _; simp [measure, hs, List.length_drop] at *; omega
          · intro _; simp [measure, hs]
        · intro _; simp [measure, hs]
  · rename_i hs
    unfold readRemainingLength
    split
    · simp
    · split
      · simp
      · simp only
        split
        · intro _; simp [measure, hs]
        · simp
        · split
          · simp
          · intro _; simp [measure, hs]; omega
  · rename_i hs
    unfold readBody
    split
    · simp
    · simp only
      split
      · split
        · intro _; simp [measure, hs, Decoder.init, List.length_drop]; omega
        · simp
      · simp
  · simp

/-- Outcome of a call of `aws_mqtt311_decoder_on_bytes_received`. -/
inductive Result where
  | success
  | failure
  | abort
deriving DecidableEq, Repr

/-- `aws_mqtt311_decoder_on_bytes_received` (171-207). -/
def onBytesReceived (d : Decoder) (s : σ) (data : Bytes) : Result × Decoder × σ :=
  let r := step handle d s data
  match _h : r.1 with
  | .continue => onBytesReceived r.2.1 r.2.2.1 r.2.2.2
  | .outOfData => (.success, r.2.1, r.2.2.1)
  | .protocolError => (.failure, { r.2.1 with state := .protocolError }, r.2.2.1)   -- 197-203
  | .abort => (.abort, r.2.1, r.2.2.1)
termination_by measure d data
decreasing_by exact step_decreases handle d s data _h

end Mqtt.Decoder311
