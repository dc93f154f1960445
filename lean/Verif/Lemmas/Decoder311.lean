import Verif.Decoder311
import Verif.Lemmas.FixedHeader
import Verif.Lemmas.Packets311

/-! The 3.1.1 stream decoder equals a parser of the whole stream (helper lemmas for C06, C07). -/
namespace Mqtt.Decoder311

variable {σ : Type} (handle : σ → Nat → Bytes → σ × Bool)

theorem decodeRL_append {x r : Bytes} {n : Nat} (h : decodeRemainingLength x = .ok (n, r)) (y : Bytes) :
    decodeRemainingLength (x ++ y) = .ok (n, r ++ y) := by
  obtain ⟨vs, hv, rfl⟩ := lengthField_of_decodeRL h
  rw [List.append_assoc]; exact decodeRL_lengthField hv _

theorem decodeRL_invalid_append {x : Bytes} (h : decodeRemainingLength x = .error .invalidRemainingLength)
    (y : Bytes) : decodeRemainingLength (x ++ y) = .error .invalidRemainingLength := by
  have gen : ∀ (cur : Bytes) (m acc : Nat), decodeRemainingLengthLoop m acc cur = .error .invalidRemainingLength →
      decodeRemainingLengthLoop m acc (cur ++ y) = .error .invalidRemainingLength := by
    intro cur
    induction cur with
    | nil => intro m acc h; simp [decodeRemainingLengthLoop] at h
    | cons b cur ih =>
      intro m acc h
      simp only [List.cons_append, decodeRemainingLengthLoop] at h ⊢
      split
      · rename_i h1; simp [h1] at h
      · rename_i h1
        rw [if_neg h1] at h
        split
        · rfl
        · rename_i h2; rw [if_neg h2] at h; exact ih _ _ h
  exact gen x 1 0 h

theorem decodeRL_err {x : Bytes} {e : Err} (h : decodeRemainingLength x = .error e) :
    e = .shortBuffer ∨ e = .invalidRemainingLength := by
  have gen : ∀ (cur : Bytes) (m acc : Nat) (e : Err), decodeRemainingLengthLoop m acc cur = .error e →
      e = .shortBuffer ∨ e = .invalidRemainingLength := by
    intro cur
    induction cur with
    | nil => intro m acc e h; simp [decodeRemainingLengthLoop] at h; exact Or.inl h.symm
    | cons b cur ih =>
      intro m acc e h
      simp only [decodeRemainingLengthLoop] at h
      split at h
      · simp at h
      · split at h
        · simp at h; exact Or.inr h.symm
        · exact ih _ _ _ h
  exact gen x 1 0 e h

theorem decodeRL_ok_length {x r : Bytes} {n : Nat} (h : decodeRemainingLength x = .ok (n, r)) :
    r.length < x.length := by
  obtain ⟨vs, hv, rfl⟩ := lengthField_of_decodeRL h
  obtain ⟨pre, last, rfl, _⟩ := hv
  simp; omega

theorem decodeRL_last {q r : Bytes} {b : UInt8} {n : Nat} (hs : decodeRemainingLength q = .error .shortBuffer)
    (h : decodeRemainingLength (q ++ [b]) = .ok (n, r)) : r = [] := by
  obtain ⟨vs, hv, he⟩ := lengthField_of_decodeRL h
  rcases List.eq_nil_or_concat r with rfl | ⟨r', c, rfl⟩
  · rfl
  · rw [List.concat_eq_append, ← List.append_assoc] at he
    have := List.append_inj_left' he rfl
    rw [this, decodeRL_lengthField hv] at hs
    simp at hs

/-- Result of parsing a stream: packets handled, then an incomplete rest or an error. -/
inductive Parsed (σ : Type) where
  | pending (s : σ) (rest : Bytes)
  | error (s : σ)

/-- Parser of a whole stream. -/
def parse (s : σ) (bytes : Bytes) : Parsed σ :=
  match bytes with
  | [] => .pending s []
  | b1 :: rest =>
    match _h : decodeRemainingLength rest with
    | .error .shortBuffer => .pending s (b1 :: rest)
    | .error _ => .error s
    | .ok (n, r) =>
      if r.length < n then .pending s (b1 :: rest)
      else if (handle s (packetType b1) ((b1 :: rest).take ((b1 :: rest).length - r.length + n))).2 then
        parse (handle s (packetType b1) ((b1 :: rest).take ((b1 :: rest).length - r.length + n))).1
          ((b1 :: rest).drop ((b1 :: rest).length - r.length + n))
      else .error (handle s (packetType b1) ((b1 :: rest).take ((b1 :: rest).length - r.length + n))).1
termination_by bytes.length
decreasing_by
  have := decodeRL_ok_length _h
  simp only [List.length_drop, List.length_cons]; omega

theorem parse_nil (s : σ) : parse handle s [] = .pending s [] := by rw [parse]

theorem parse_short (s : σ) (b1 : UInt8) {rest : Bytes} (h : decodeRemainingLength rest = .error .shortBuffer) :
    parse handle s (b1 :: rest) = .pending s (b1 :: rest) := by
  rw [parse]; split <;> simp_all

theorem parse_invalid (s : σ) (b1 : UInt8) {rest : Bytes}
    (h : decodeRemainingLength rest = .error .invalidRemainingLength) :
    parse handle s (b1 :: rest) = .error s := by
  rw [parse]; split <;> simp_all

theorem parse_ok (s : σ) (b1 : UInt8) {rest r : Bytes} {n : Nat} (h : decodeRemainingLength rest = .ok (n, r)) :
    parse handle s (b1 :: rest) =
      if r.length < n then .pending s (b1 :: rest)
      else if (handle s (packetType b1) ((b1 :: rest).take ((b1 :: rest).length - r.length + n))).2 then
        parse handle (handle s (packetType b1) ((b1 :: rest).take ((b1 :: rest).length - r.length + n))).1
          ((b1 :: rest).drop ((b1 :: rest).length - r.length + n))
      else .error (handle s (packetType b1) ((b1 :: rest).take ((b1 :: rest).length - r.length + n))).1 := by
  rw [parse]; split <;> simp_all

/-- The decoder that holds the given bytes of an incomplete packet. -/
def ofPending (p : Bytes) : Decoder :=
  match p with
  | [] => Decoder.init
  | b :: q => match decodeRemainingLength q with
    | .ok (n, r) => ⟨.readBody, (b :: q).length - r.length + n, b :: q⟩
    | .error _ => ⟨.readRemainingLength, 0, b :: q⟩

/-- The bytes held are a prefix of one packet. -/
def Holdable (p : Bytes) : Prop :=
  match p with
  | [] => True
  | _ :: q => decodeRemainingLength q = .error .shortBuffer ∨
      ∃ n r, decodeRemainingLength q = .ok (n, r) ∧ r.length ≤ n

theorem parse_pending_holdable (bytes : Bytes) : ∀ (s s' : σ) (p : Bytes),
    parse handle s bytes = .pending s' p → Holdable p := by
  induction hn : bytes.length using Nat.strongRecOn generalizing bytes with
  | ind k ih =>
    intro s s' p h
    cases bytes with
    | nil => rw [parse_nil] at h; cases h; trivial
    | cons b1 rest =>
      cases hd : decodeRemainingLength rest with
      | error e =>
        rcases decodeRL_err hd with rfl | rfl
        · rw [parse_short _ _ _ hd] at h; cases h; exact Or.inl hd
        · rw [parse_invalid _ _ _ hd] at h; cases h
      | ok v =>
        obtain ⟨n, r⟩ := v
        rw [parse_ok _ _ _ hd] at h
        split at h
        · cases h; exact Or.inr ⟨n, r, hd, by omega⟩
        · split at h
          · have := decodeRL_ok_length hd
            refine ih _ ?_ _ rfl _ _ _ h
            simp only [List.length_drop, List.length_cons] at hn ⊢; omega
          · cases h

/-- Parsing in two pieces. -/
theorem parse_append (x : Bytes) : ∀ (y : Bytes) (s : σ),
    parse handle s (x ++ y) = match parse handle s x with
      | .pending s' p => parse handle s' (p ++ y)
      | .error s' => .error s' := by
  induction hn : x.length using Nat.strongRecOn generalizing x with
  | ind k ih =>
    intro y s
    cases x with
    | nil => rw [parse_nil]
    | cons b1 rest =>
      cases hd : decodeRemainingLength rest with
      | error e =>
        rcases decodeRL_err hd with rfl | rfl
        · rw [parse_short _ _ _ hd]
        · rw [parse_invalid _ _ _ hd, List.cons_append, parse_invalid _ _ _ (decodeRL_invalid_append hd y)]
      | ok v =>
        obtain ⟨n, r⟩ := v
        have hl := decodeRL_ok_length hd
        rw [parse_ok _ _ _ hd]
        by_cases h1 : r.length < n
        · simp only [h1, if_true]
        · have e1 : (b1 :: (rest ++ y)).length - (r ++ y).length + n = (b1 :: rest).length - r.length + n := by
            simp; omega
          have e2 : (b1 :: (rest ++ y)).take ((b1 :: rest).length - r.length + n) =
              (b1 :: rest).take ((b1 :: rest).length - r.length + n) := by
            rw [← List.cons_append, List.take_append_of_le_length]; simp; omega
          have e3 : (b1 :: (rest ++ y)).drop ((b1 :: rest).length - r.length + n) =
              (b1 :: rest).drop ((b1 :: rest).length - r.length + n) ++ y := by
            rw [← List.cons_append, List.drop_append_of_le_length]; simp; omega
          rw [List.cons_append, parse_ok _ _ _ (decodeRL_append hd y), e1, e2, e3]
          rw [if_neg (by simp; omega), if_neg h1]
          split
          · apply ih _ _ _ rfl
            simp only [List.length_drop, List.length_cons] at hn ⊢; omega
          · rfl

/-- One call of the decoder equals parsing what it holds followed by the new data. -/
theorem onBytes_eq (p : Bytes) (data : Bytes) : ∀ (s : σ), Holdable p →
    match parse handle s (p ++ data) with
    | .pending s' p' => onBytesReceived handle (ofPending p) s data = (.success, ofPending p', s')
    | .error s' => ∃ d', onBytesReceived handle (ofPending p) s data = (.failure, d', s') ∧
        d'.state = .protocolError := by
  induction hn : Mqtt.Decoder311.measure (ofPending p) data using Nat.strongRecOn generalizing p data with
  | ind k ih =>
    intro s hp
    have dec := step_decreases handle (ofPending p) s data
    rw [onBytesReceived]
    cases p with
    | nil =>
      cases data with
      | nil =>
        simp [parse_nil, ofPending, step, Decoder.init, readFirstByte]
      | cons byte rest =>
        cases hfh : fixedHeaderDecode (byte :: rest) with
        | ok v =>
          obtain ⟨h, temp⟩ := v
          obtain ⟨b1, vs, hv, he, hle, _, _⟩ := fixedHeaderDecode_ok hfh
          simp only [List.cons_append, List.cons.injEq] at he
          obtain ⟨rfl, rfl⟩ := he
          have hd := decodeRL_lengthField hv temp
          have hstep : step handle (ofPending []) s (byte :: (vs ++ temp)) =
              ((handlePacket handle s ((byte :: (vs ++ temp)).take
                  ((byte :: (vs ++ temp)).length - temp.length + h.remainingLength))).2, ofPending [],
                (handlePacket handle s ((byte :: (vs ++ temp)).take
                  ((byte :: (vs ++ temp)).length - temp.length + h.remainingLength))).1,
                (byte :: (vs ++ temp)).drop ((byte :: (vs ++ temp)).length - temp.length + h.remainingLength)) := by
            simp only [ofPending, step, Decoder.init, readFirstByte, hfh]
            simp [hle]
          rw [hstep] at dec
          rw [List.nil_append, parse_ok _ _ _ hd, if_neg (by omega)]
          have hpos : (byte :: (vs ++ temp)).length - temp.length + h.remainingLength =
              (vs.length + h.remainingLength) + 1 := by simp; omega
          have hpk : handlePacket handle s ((byte :: (vs ++ temp)).take
                ((byte :: (vs ++ temp)).length - temp.length + h.remainingLength)) =
              ((handle s (packetType byte) ((byte :: (vs ++ temp)).take
                ((byte :: (vs ++ temp)).length - temp.length + h.remainingLength))).1,
               if (handle s (packetType byte) ((byte :: (vs ++ temp)).take
                ((byte :: (vs ++ temp)).length - temp.length + h.remainingLength))).2
               then .continue else .protocolError) := by
            rw [hpos, List.take_succ_cons]; rfl
          rw [hpk] at hstep dec
          by_cases hh : (handle s (packetType byte) ((byte :: (vs ++ temp)).take
                ((byte :: (vs ++ temp)).length - temp.length + h.remainingLength))).2 = true
          · simp only [hh, if_true] at hstep dec ⊢
            rw [hstep]
            simp only
            exact ih _ (by rw [← hn]; exact dec trivial) [] _ rfl _ trivial
          · simp only [hh] at hstep dec ⊢
            rw [hstep]
            exact ⟨_, rfl, rfl⟩
        | error e =>
          have hstep : step handle (ofPending []) s (byte :: rest) =
              (.continue, ofPending [byte], s, rest) := by
            simp only [ofPending, step, Decoder.init, readFirstByte, hfh]
            simp [decodeRemainingLength, decodeRemainingLengthLoop]
          rw [hstep] at dec ⊢
          simp only
          exact ih _ (by rw [← hn]; exact dec rfl) [byte] rest rfl s (Or.inl rfl)
    | cons b q =>
      rcases hp with hs | ⟨n, r, hr, hle⟩
      · have hof : ofPending (b :: q) = ⟨.readRemainingLength, 0, b :: q⟩ := by simp [ofPending, hs]
        cases data with
        | nil =>
          rw [List.append_nil, parse_short _ _ _ hs]
          simp only
          rw [hof]
          simp [step, readRemainingLength]
        | cons byte rest =>
          have happ : (b :: q) ++ byte :: rest = b :: ((q ++ [byte]) ++ rest) := by simp
          cases hd : decodeRemainingLength (q ++ [byte]) with
          | error e =>
            rcases decodeRL_err hd with rfl | rfl
            · have hstep : step handle (ofPending (b :: q)) s (byte :: rest) =
                  (.continue, ofPending (b :: q ++ [byte]), s, rest) := by
                rw [hof]; simp [step, readRemainingLength, hd, ofPending]
              rw [hstep] at dec ⊢
              rw [happ]
              have := ih _ (by rw [← hn]; exact dec rfl) (b :: q ++ [byte]) rest rfl s (Or.inl hd)
              simpa using this
            · have hstep : (step handle (ofPending (b :: q)) s (byte :: rest)).1 = .protocolError ∧
                  (step handle (ofPending (b :: q)) s (byte :: rest)).2.2.1 = s := by
                rw [hof]; simp [step, readRemainingLength, hd]
              rw [happ, parse_invalid _ _ _ (decodeRL_invalid_append hd rest)]
              simp only
              rw [hstep.1, hstep.2]
              exact ⟨_, rfl, rfl⟩
          | ok v =>
            obtain ⟨n, r⟩ := v
            have hr := decodeRL_last hs hd
            subst hr
            have hstep : step handle (ofPending (b :: q)) s (byte :: rest) =
                (.continue, ofPending (b :: q ++ [byte]), s, rest) := by
              rw [hof]; simp [step, readRemainingLength, hd, ofPending]; omega
            rw [hstep] at dec ⊢
            rw [happ]
            have := ih _ (by rw [← hn]; exact dec rfl) (b :: q ++ [byte]) rest rfl s (Or.inr ⟨n, [], hd, by simp⟩)
            simpa using this
      · have hof : ofPending (b :: q) = ⟨.readBody, (b :: q).length - r.length + n, b :: q⟩ := by
          simp [ofPending, hr]
        have hl := decodeRL_ok_length hr
        have hsub : subSize ((b :: q).length - r.length + n) (b :: q).length = n - r.length := by
          rw [subSize_eq _ _ (by simp; omega)]; simp; omega
        have htot : (b :: q).length - r.length + n ≠ 0 := by simp; omega
        have hd := decodeRL_append hr data
        rw [List.cons_append, parse_ok _ _ _ hd]
        by_cases hc : data.length < n - r.length
        · rw [if_pos (by simp; omega)]
          have hstep : step handle (ofPending (b :: q)) s data =
              (.outOfData, ofPending (b :: (q ++ data)), s, []) := by
            rw [hof]
            simp only [step, readBody, htot, if_false, hsub]
            rw [Nat.min_eq_right (by omega), List.take_length, List.drop_length, if_neg (by simp; omega)]
            simp [ofPending, hd]; omega
          rw [hstep]
        · rw [if_neg (by simp; omega)]
          have e1 : (b :: (q ++ data)).length - (r ++ data).length + n = (b :: q).length + (n - r.length) := by
            simp; omega
          have e2 : (b :: (q ++ data)).take ((b :: q).length + (n - r.length)) =
              (b :: q) ++ data.take (n - r.length) := by
            rw [← List.cons_append, List.take_append]; simp [List.take_of_length_le]
          have e3 : (b :: (q ++ data)).drop ((b :: q).length + (n - r.length)) = data.drop (n - r.length) := by
            rw [← List.cons_append, List.drop_append]; simp
          rw [e1, e2, e3]
          have hpk : handlePacket handle s ((b :: q) ++ data.take (n - r.length)) =
              ((handle s (packetType b) ((b :: q) ++ data.take (n - r.length))).1,
               if (handle s (packetType b) ((b :: q) ++ data.take (n - r.length))).2
               then .continue else .protocolError) := rfl
          have hb0 : readBody handle ⟨.readBody, (b :: q).length - r.length + n, b :: q⟩ s data =
              (if (handle s (packetType b) ((b :: q) ++ data.take (n - r.length))).2 = true then
                (.continue, Decoder.init, (handle s (packetType b) ((b :: q) ++ data.take (n - r.length))).1,
                  data.drop (n - r.length))
              else (.protocolError, ⟨.readBody, (b :: q).length - r.length + n, (b :: q) ++ data.take (n - r.length)⟩,
                (handle s (packetType b) ((b :: q) ++ data.take (n - r.length))).1, data.drop (n - r.length))) := by
            simp only [readBody, htot, if_false, hsub]
            rw [Nat.min_eq_left (by omega), if_pos (by simp; omega), hpk]
            split <;> simp_all
          have hstep : step handle (ofPending (b :: q)) s data =
              readBody handle ⟨.readBody, (b :: q).length - r.length + n, b :: q⟩ s data := by
            rw [hof]; rfl
          rw [hb0] at hstep
          by_cases hh : (handle s (packetType b) ((b :: q) ++ data.take (n - r.length))).2 = true
          · rw [if_pos hh] at hstep ⊢
            rw [hstep] at dec ⊢
            exact ih _ (by rw [← hn]; exact dec rfl) [] _ rfl _ trivial
          · rw [if_neg hh] at hstep ⊢
            rw [hstep]
            exact ⟨_, rfl, rfl⟩

end Mqtt.Decoder311
