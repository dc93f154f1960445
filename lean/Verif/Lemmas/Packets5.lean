import Verif.Lemmas.Wire5

/-! The bytes of each outgoing MQTT 5 packet and their lengths. -/
namespace Mqtt.V5
open Mqtt.Spec5

/-- `bytes` is a fixed header byte, the length of `body` cut to 32 bits, and `body`. -/
def Framed (b1 : UInt8) (body bytes : Bytes) : Prop := bytes = b1 :: (vliBytes (u32 body.length) ++ body)

theorem u32_of_le {n : Nat} (h : n ≤ maxVli) : u32 n = n := by
  unfold u32; exact Nat.mod_eq_of_lt (by omega)

/-- A property section: length and contents. -/
def section5 (seg : Bytes) : Bytes := vliBytes seg.length ++ seg

theorem section5_length (seg : Bytes) (k : Nat) (h : vliSize seg.length = some k) :
    (section5 seg).length = k + seg.length := by
  simp [section5, (vliSize_some h).2]

/-! #### DISCONNECT -/

def disconnectSeg (v : DisconnectView) : Bytes :=
  stepsBytes (optU32 17 v.sessionExpiry) ++ (stepsBytes (optCursor 31 v.reasonString) ++
    (stepsBytes (optCursor 28 v.serverReference) ++ stepsBytes (userPropertySteps v.userProperties)))

def disconnectBody (v : DisconnectView) : Bytes := UInt8.ofNat v.reasonCode :: section5 (disconnectSeg v)

theorem disconnect_bytes {v : DisconnectView} {total props : Nat} (h : disconnectLengths v = some (total, props)) :
    ∃ steps, disconnectSteps v = some steps ∧ Framed (byte1 14 0) (disconnectBody v) (stepsBytes steps) ∧
      (disconnectBody v).length = total ∧ (disconnectSeg v).length ≤ maxVli := by
  simp only [disconnectLengths] at h
  cases hk : vliSize (userPropertiesLen v.userProperties + optU32Len v.sessionExpiry +
    optCursorLen v.serverReference + optCursorLen v.reasonString) with
  | none => simp [hk] at h
  | some k =>
    simp [hk] at h
    obtain ⟨h1, h2⟩ := h
    have hseg : (disconnectSeg v).length = props := by
      simp only [disconnectSeg, List.length_append, optU32_length, optCursor_length, userPropertySteps_length]
      omega
    rw [h2, ← hseg] at hk
    obtain ⟨hmax, _⟩ := vliSize_some hk
    have hbody : (disconnectBody v).length = total := by
      simp only [disconnectBody, List.length_cons, section5_length _ _ hk]; omega
    have hl : disconnectLengths v = some (total, props) := by
      simp only [disconnectLengths, h2, ← hseg, hk]; simp; omega
    refine ⟨_, by simp only [disconnectSteps, hl]; rfl, ?_, hbody, hmax⟩
    unfold Framed
    rw [hbody]
    have hp : u32 props = (disconnectSeg v).length := by rw [← hseg]; exact u32_of_le hmax
    by_cases hpos : props > 0
    · rw [if_pos hpos]
      simp [stepsBytes_append, Step.bytes, stepU8, hp, disconnectBody, section5, disconnectSeg]
    · rw [if_neg hpos]
      have hnil : disconnectSeg v = [] := List.length_eq_zero_iff.mp (by omega)
      simp [Step.bytes, stepU8, hp, disconnectBody, section5, hnil]

/-! #### SUBSCRIBE and UNSUBSCRIBE -/

def subscribeSeg (v : SubscribeView) : Bytes :=
  stepsBytes (subIdSteps v.subscriptionIdentifier) ++ stepsBytes (userPropertySteps v.userProperties)

def filtersBytes (fs : List SubscriptionView) : Bytes :=
  stepsBytes (fs.flatMap fun s => prefixed s.topicFilter ++ [.u8 (subscriptionFlags s)])

def subscribeBody (v : SubscribeView) : Bytes :=
  be16 (UInt16.ofNat v.packetId) ++ (section5 (subscribeSeg v) ++ filtersBytes v.subscriptions)

theorem subscribe_bytes {v : SubscribeView} {total props : Nat} (h : subscribeLengths v = some (total, props))
    (hid : ∀ i, v.subscriptionIdentifier = some i → i ≤ maxVli) :
    ∃ steps, subscribeSteps v = some steps ∧ Framed (byte1 8 2) (subscribeBody v) (stepsBytes steps) ∧
      (subscribeBody v).length = total ∧ (subscribeSeg v).length ≤ maxVli := by
  have hidlen : (stepsBytes (subIdSteps v.subscriptionIdentifier)).length =
      subIdLen v.subscriptionIdentifier := by
    cases hs : v.subscriptionIdentifier with
    | none => rfl
    | some i =>
      simp only [subIdSteps, subIdLen, vliSize_eq i (hid i hs), Option.getD_some]
      simp [Step.bytes, stepU8]
  simp only [subscribeLengths] at h
  rw [← hidlen] at h
  cases hk : vliSize (userPropertiesLen v.userProperties +
      (stepsBytes (subIdSteps v.subscriptionIdentifier)).length) with
  | none => simp [hk] at h
  | some k =>
    simp [hk] at h
    obtain ⟨h1, h2⟩ := h
    have hseg : (subscribeSeg v).length = props := by
      simp only [subscribeSeg, List.length_append, userPropertySteps_length]; omega
    rw [h2, ← hseg] at hk
    obtain ⟨hmax, _⟩ := vliSize_some hk
    have hfil := foldl_length_filters v.subscriptions 0
    have hbody : (subscribeBody v).length = total := by
      simp only [subscribeBody, List.length_append, section5_length _ _ hk, filtersBytes, be16_length]
      omega
    have hl : subscribeLengths v = some (total, props) := by
      simp only [subscribeLengths]
      rw [← hidlen, h2, ← hseg, hk]; simp; omega
    refine ⟨_, by simp only [subscribeSteps, hl]; rfl, ?_, hbody, hmax⟩
    unfold Framed
    rw [hbody]
    have hp : u32 props = (subscribeSeg v).length := by rw [← hseg]; exact u32_of_le hmax
    simp only [stepsBytes_append, stepsBytes_cons, Step.bytes, stepU16, hp, subscribeBody, section5,
      filtersBytes, subscribeSeg, stepsBytes_nil, List.append_assoc, List.cons_append, List.nil_append]

def unsubscribeBody (v : UnsubscribeView) : Bytes :=
  be16 (UInt16.ofNat v.packetId) ++ (section5 (stepsBytes (userPropertySteps v.userProperties)) ++
    stepsBytes (v.topicFilters.flatMap prefixed))

theorem unsubscribe_bytes {v : UnsubscribeView} {total props : Nat}
    (h : unsubscribeLengths v = some (total, props)) :
    ∃ steps, unsubscribeSteps v = some steps ∧ Framed (byte1 10 2) (unsubscribeBody v) (stepsBytes steps) ∧
      (unsubscribeBody v).length = total ∧ (stepsBytes (userPropertySteps v.userProperties)).length ≤ maxVli := by
  simp only [unsubscribeLengths] at h
  cases hk : vliSize (userPropertiesLen v.userProperties) with
  | none => simp [hk] at h
  | some k =>
    simp [hk] at h
    obtain ⟨h1, h2⟩ := h
    have hseg : (stepsBytes (userPropertySteps v.userProperties)).length = props := by
      simp only [userPropertySteps_length]; omega
    rw [h2, ← hseg] at hk
    obtain ⟨hmax, _⟩ := vliSize_some hk
    have hfil := foldl_length_texts v.topicFilters 0
    have hbody : (unsubscribeBody v).length = total := by
      simp only [unsubscribeBody, List.length_append, section5_length _ _ hk, be16_length]
      omega
    have hl : unsubscribeLengths v = some (total, props) := by
      simp only [unsubscribeLengths]
      rw [h2, ← hseg, hk]; simp; omega
    refine ⟨_, by simp only [unsubscribeSteps, hl]; rfl, ?_, hbody, hmax⟩
    unfold Framed
    rw [hbody]
    have hp : u32 props = (stepsBytes (userPropertySteps v.userProperties)).length := by
      rw [← hseg]; exact u32_of_le hmax
    simp only [stepsBytes_append, stepsBytes_cons, Step.bytes, stepU16, hp, unsubscribeBody, section5,
      stepsBytes_nil, List.append_assoc, List.cons_append, List.nil_append]

/-! #### PUBLISH -/

def publishSeg (v : PublishView) : Bytes :=
  stepsBytes (optU8 1 v.payloadFormat) ++ (stepsBytes (optU32 2 v.messageExpiry) ++
    (stepsBytes (optU16 35 v.topicAlias) ++ (stepsBytes (optCursor 8 v.responseTopic) ++
    (stepsBytes (optCursor 9 v.correlationData) ++
    (stepsBytes (v.subscriptionIdentifiers.flatMap fun i => [stepU8 11, .vli i]) ++
    (stepsBytes (optCursor 3 v.contentType) ++ stepsBytes (userPropertySteps v.userProperties)))))))

def publishBody (v : PublishView) : Bytes :=
  stepsBytes (prefixed v.topic) ++ ((if v.qos ≠ 0 then be16 (UInt16.ofNat v.packetId) else []) ++
    (section5 (publishSeg v) ++ v.payload))

/-- The body is as long as computed, except for the packet id when its presence does not follow the QoS. -/
theorem publish_bytes {v : PublishView} {total props : Nat} (h : publishLengths v = some (total, props))
    (hq : v.packetId ≠ 0 ↔ v.qos ≠ 0) :
    ∃ steps, publishSteps v = some steps ∧
      Framed (byte1 3 (publishFlags5 v)) (publishBody v) (stepsBytes steps) ∧
      (publishBody v).length = total ∧ (publishSeg v).length ≤ maxVli ∧
      (∀ i ∈ v.subscriptionIdentifiers, i ≤ maxVli) := by
  simp only [publishLengths] at h
  cases hi : subscriptionIdsLen v.subscriptionIdentifiers with
  | none => simp [hi] at h
  | some n =>
    obtain ⟨hids, hidmax⟩ := subscriptionIds_length _ _ hi
    have hseg : (publishSeg v).length = userPropertiesLen v.userProperties + optU8Len v.payloadFormat +
        optU32Len v.messageExpiry + optU16Len v.topicAlias + optCursorLen v.responseTopic +
        optCursorLen v.correlationData + optCursorLen v.contentType + n := by
      simp only [publishSeg, List.length_append, optU8_length, optU16_length, optU32_length, optCursor_length,
        userPropertySteps_length, hids]
      omega
    have hl := h
    simp only [hi, Option.bind_eq_bind, Option.bind_some, ← hseg] at h
    cases hk : vliSize (publishSeg v).length with
    | none => simp [hk] at h
    | some k =>
      simp only [hk, Option.bind_some, Option.some.injEq, Prod.mk.injEq] at h
      obtain ⟨h1, h2⟩ := h
      obtain ⟨hmax, _⟩ := vliSize_some hk
      have hbody : (publishBody v).length = total := by
        simp only [publishBody, List.length_append, section5_length _ _ hk, prefixed_length]
        by_cases h0 : v.qos ≠ 0
        · rw [if_pos (hq.mpr h0)] at h1
          rw [if_pos h0, be16_length]; omega
        · have : ¬ v.packetId ≠ 0 := fun h => h0 (hq.mp h)
          rw [if_neg this] at h1
          rw [if_neg h0, List.length_nil]; omega
      have hl : publishLengths v = some (total, props) := hl
      refine ⟨_, by simp only [publishSteps, hl]; rfl, ?_, hbody, hmax, hidmax⟩
      unfold Framed
      rw [hbody]
      have hp : u32 props = (publishSeg v).length := by
        rw [← h2, u32_of_le hmax]; exact u32_of_le hmax
      have hpay : stepsBytes (if v.payload.length > 0 then [.cursor v.payload] else []) = v.payload := by
        by_cases h0 : v.payload.length > 0
        · rw [if_pos h0]; simp [Step.bytes]
        · rw [if_neg h0]; simp only [stepsBytes_nil]
          exact (List.length_eq_zero_iff.mp (by omega)).symm
      have hpid : stepsBytes (if v.qos ≠ 0 then [stepU16 v.packetId] else []) =
          if v.qos ≠ 0 then be16 (UInt16.ofNat v.packetId) else [] := by
        by_cases h0 : v.qos ≠ 0
        · rw [if_pos h0, if_pos h0]; simp [Step.bytes, stepU16]
        · rw [if_neg h0, if_neg h0]; rfl
      simp only [stepsBytes_append, stepsBytes_cons, Step.bytes, hp, hpay, hpid, publishBody, section5,
        publishSeg, stepsBytes_nil, List.append_assoc, List.cons_append, List.nil_append]

/-! #### PUBACK -/

def pubackSeg (v : PubackView) : Bytes :=
  stepsBytes (optCursor 31 v.reasonString) ++ stepsBytes (userPropertySteps v.userProperties)

def pubackBody (v : PubackView) : Bytes :=
  be16 (UInt16.ofNat v.packetId) ++
    (if pubackSeg v = [] then (if v.reasonCode = 0 then [] else [UInt8.ofNat v.reasonCode])
    else UInt8.ofNat v.reasonCode :: section5 (pubackSeg v))

theorem puback_bytes {v : PubackView} {total props : Nat} (h : pubackLengths v = some (total, props)) :
    ∃ steps, pubackSteps v = some steps ∧ Framed (byte1 4 0) (pubackBody v) (stepsBytes steps) ∧
      (pubackBody v).length = total ∧ (pubackSeg v).length ≤ maxVli := by
  have hseg : (pubackSeg v).length = userPropertiesLen v.userProperties + optCursorLen v.reasonString := by
    simp only [pubackSeg, List.length_append, optCursor_length, userPropertySteps_length]; omega
  have hl := h
  simp only [pubackLengths, ← hseg] at h
  by_cases h0 : (pubackSeg v).length = 0
  · rw [if_pos h0] at h
    simp only [Option.some.injEq, Prod.mk.injEq] at h
    obtain ⟨h1, h2⟩ := h
    have hnil : pubackSeg v = [] := List.length_eq_zero_iff.mp h0
    refine ⟨_, by simp only [pubackSteps, hl]; rfl, ?_, ?_, by omega⟩
    · unfold Framed pubackBody
      rw [if_pos hnil]
      by_cases hr : v.reasonCode = 0
      · rw [if_pos hr] at h1 ⊢
        subst h1
        simp [Step.bytes, stepU16, u32]
      · rw [if_neg hr] at h1 ⊢
        subst h1
        simp [Step.bytes, stepU16, stepU8, u32]
    · unfold pubackBody
      rw [if_pos hnil]
      by_cases hr : v.reasonCode = 0
      · rw [if_pos hr] at h1 ⊢; simp [← h1]
      · rw [if_neg hr] at h1 ⊢; simp [← h1]
  · rw [if_neg h0] at h
    have hnil : ¬ pubackSeg v = [] := fun e => h0 (by rw [e]; rfl)
    cases hk : vliSize (pubackSeg v).length with
    | none => simp [hk] at h
    | some k =>
      simp only [hk, Option.bind_eq_bind, Option.bind_some, Option.some.injEq, Prod.mk.injEq] at h
      obtain ⟨h1, h2⟩ := h
      obtain ⟨hmax, hkl⟩ := vliSize_some hk
      have hbody : (pubackBody v).length = total := by
        simp only [pubackBody, if_neg hnil, List.length_append, List.length_cons, section5_length _ _ hk, be16_length]
        omega
      refine ⟨_, by simp only [pubackSteps, hl]; rfl, ?_, hbody, hmax⟩
      unfold Framed
      rw [hbody]
      have hp : u32 props = (pubackSeg v).length := by
        rw [← h2, u32_of_le hmax]; exact u32_of_le hmax
      have hk1 : 1 ≤ k := by rw [hkl, vliBytes_eq]; exact encodeRL_length_pos _
      rw [if_neg (by omega), if_neg (by omega), pubackBody, if_neg hnil]
      simp only [stepsBytes_append, stepsBytes_cons, Step.bytes, stepU16, stepU8, hp, section5,
        pubackSeg, stepsBytes_nil, List.append_assoc, List.cons_append, List.nil_append]

/-! #### CONNECT -/

def connectSeg (v : ConnectView) : Bytes :=
  stepsBytes (optU32 17 v.sessionExpiry) ++ (stepsBytes (optU16 33 v.receiveMaximum) ++
    (stepsBytes (optU32 39 v.maximumPacketSize) ++ (stepsBytes (optU16 34 v.topicAliasMaximum) ++
    (stepsBytes (optU8 25 v.requestResponse) ++ (stepsBytes (optU8 23 v.requestProblem) ++
    (stepsBytes (optCursor 21 v.authMethod) ++ (stepsBytes (optCursor 22 v.authData) ++
    stepsBytes (userPropertySteps v.userProperties))))))))

def willSeg (v : ConnectView) (w : PublishView) : Bytes :=
  stepsBytes (optU32 24 v.willDelay) ++ (stepsBytes (optU8 1 w.payloadFormat) ++
    (stepsBytes (optU32 2 w.messageExpiry) ++ (stepsBytes (optCursor 3 w.contentType) ++
    (stepsBytes (optCursor 8 w.responseTopic) ++ (stepsBytes (optCursor 9 w.correlationData) ++
    stepsBytes (userPropertySteps w.userProperties))))))

def willBytes (v : ConnectView) (w : PublishView) : Bytes :=
  section5 (willSeg v w) ++ (stepsBytes (prefixed w.topic) ++ stepsBytes (prefixed w.payload))

def optWillBytes (v : ConnectView) : Option PublishView → Bytes
  | none => []
  | some w => willBytes v w

def connectBody (v : ConnectView) : Bytes :=
  [0x00, 0x04, 0x4D, 0x51, 0x54, 0x54, 0x05] ++ (connectFlags v :: (be16 (UInt16.ofNat v.keepAlive) ++
    (section5 (connectSeg v) ++ (stepsBytes (prefixed v.clientId) ++
    (optWillBytes v v.will ++
    (stepsBytes (optPrefixed v.username) ++ stepsBytes (optPrefixed v.password)))))))

theorem willSeg_length (v : ConnectView) (w : PublishView) :
    (willSeg v w).length = userPropertiesLen w.userProperties + optU32Len v.willDelay + optU8Len w.payloadFormat +
        optU32Len w.messageExpiry + optCursorLen w.contentType + optCursorLen w.responseTopic +
        optCursorLen w.correlationData := by
  simp only [willSeg, List.length_append, optU8_length, optU32_length, optCursor_length, userPropertySteps_length]
  omega

theorem connectSeg_length (v : ConnectView) :
    (connectSeg v).length = userPropertiesLen v.userProperties + optU32Len v.sessionExpiry +
    optU16Len v.receiveMaximum + optU32Len v.maximumPacketSize + optU16Len v.topicAliasMaximum +
    optU8Len v.requestResponse + optU8Len v.requestProblem + optCursorLen v.authMethod +
    optCursorLen v.authData := by
  simp only [connectSeg, List.length_append, optU8_length, optU16_length, optU32_length, optCursor_length,
    userPropertySteps_length]
  omega

/-- The will properties must not be 2^32 bytes or more: their length is cut to 32 bits before it is checked. -/
theorem connect_bytes {v : ConnectView} {total props wprops : Nat}
    (h : connectLengths v = some (total, props, wprops))
    (hw : ∀ w, v.will = some w → (willSeg v w).length < 4294967296) :
    ∃ steps, connectSteps v = some steps ∧ Framed (byte1 1 0) (connectBody v) (stepsBytes steps) ∧
      (connectBody v).length = total ∧ (connectSeg v).length ≤ maxVli ∧
      ∀ w, v.will = some w → (willSeg v w).length ≤ maxVli := by
  have hl := h
  simp only [connectLengths, ← connectSeg_length, ← willSeg_length] at h
  cases hk : vliSize (connectSeg v).length with
  | none => simp [hk] at h
  | some k =>
    obtain ⟨hmax, _⟩ := vliSize_some hk
    simp only [hk, Option.bind_eq_bind, Option.bind_some] at h
    cases hv : v.will with
    | none =>
      simp only [hv, Option.bind_some, Option.some.injEq, Prod.mk.injEq] at h
      obtain ⟨h1, h2, h3⟩ := h
      have hbody : (connectBody v).length = total := by
        simp only [connectBody, hv, List.length_append, List.length_cons, section5_length _ _ hk, be16_length,
          prefixed_length, optPrefixed_length, List.length_nil, optWillBytes]
        omega
      refine ⟨_, by simp only [connectSteps, hl]; rfl, ?_, hbody, hmax, by simp⟩
      unfold Framed
      rw [hbody]
      have hp : u32 props = (connectSeg v).length := by
        rw [← h2, u32_of_le hmax]; exact u32_of_le hmax
      simp only [hv, optWillBytes, stepsBytes_append, stepsBytes_cons, Step.bytes, stepU16, hp, connectBody, section5,
        connectSeg, stepsBytes_nil, List.append_assoc, List.cons_append, List.nil_append]
    | some w =>
      have hwlt := hw w hv
      have hu : u32 (willSeg v w).length = (willSeg v w).length := Nat.mod_eq_of_lt hwlt
      simp only [hv, hu] at h
      cases hwk : vliSize (willSeg v w).length with
      | none => simp [hwk] at h
      | some wk =>
        obtain ⟨hwmax, _⟩ := vliSize_some hwk
        simp only [hwk, Option.bind_some, Option.some.injEq, Prod.mk.injEq] at h
        obtain ⟨h1, h2, h3⟩ := h
        have hbody : (connectBody v).length = total := by
          simp only [connectBody, hv, List.length_append, List.length_cons, section5_length _ _ hk, be16_length,
            prefixed_length, optPrefixed_length, List.length_nil, optWillBytes, willBytes, section5_length _ _ hwk]
          omega
        refine ⟨_, by simp only [connectSteps, hl]; rfl, ?_, hbody, hmax, ?_⟩
        · unfold Framed
          rw [hbody]
          have hp : u32 props = (connectSeg v).length := by
            rw [← h2, u32_of_le hmax]; exact u32_of_le hmax
          have hwp : u32 wprops = (willSeg v w).length := by rw [← h3]; exact hu
          simp only [hv, optWillBytes, willSteps, stepsBytes_append, stepsBytes_cons, Step.bytes, stepU16, hp, hwp, connectBody,
            section5, connectSeg, willBytes, willSeg, prefixed, stepsBytes_nil, List.append_assoc, List.cons_append,
            List.nil_append]
        · intro w' hw'
          simp at hw'; subst hw'; exact hwmax

end Mqtt.V5
