import Verif.Lemmas.Packets5
import Verif.Props.C20

/-!
C21: the lengths announced in outgoing MQTT 5 packets are the lengths written.
C22: outgoing MQTT 5 packets, read according to the MQTT 5 grammar, carry what the user asked for.
-/
namespace Mqtt.Props
open Mqtt.V5 Mqtt.Spec5

/-- The encoder was able to take the packet: lengths can be computed and every step be pushed. -/
def Accepted (p : Outgoing) (steps : List Step) : Prop :=
  packetSteps p = some steps ∧ (pushSteps steps).2 = true

/-- The packet went through the size check of the client (every packet but CONNECT does). -/
def SizeKnown (p : Outgoing) : Prop := (∃ v, p = .connect v) ∨ encodedSize p ≠ none

theorem userPropertiesLen_le (ps : List UserProperty) (h : UserFits ps) : userPropertiesLen ps ≤ 134220800 := by
  have gen : ∀ ps : List UserProperty, (∀ p ∈ ps, Short p.name ∧ Short p.value) →
      userPropertiesLen ps ≤ 131075 * ps.length := by
    intro ps
    induction ps with
    | nil => intro _; simp [userPropertiesLen]
    | cons p ps ih =>
      intro hp
      have h1 := ih fun q hq => hp q (List.mem_cons_of_mem _ hq)
      obtain ⟨h2, h3⟩ := hp p (by simp)
      unfold Short at h2 h3
      rw [userPropertiesLen_cons, List.length_cons]; omega
  have := gen ps h.2
  have := h.1
  omega

theorem optLen_le {o : Option Bytes} (h : OptShort o) : optCursorLen o ≤ 65538 ∧ optPrefixedLen o ≤ 65537 := by
  cases o with
  | none => simp [optCursorLen, optPrefixedLen]
  | some s => have := h s rfl; unfold Short at this; simp only [optCursorLen, optPrefixedLen]; omega

theorem optNumLen_le (o : Option Nat) : optU8Len o ≤ 2 ∧ optU16Len o ≤ 3 ∧ optU32Len o ≤ 5 := by
  cases o <;> simp [optU8Len, optU16Len, optU32Len]

theorem willSeg_lt (v : ConnectView) (w : PublishView) (h : WillFits w) : (willSeg v w).length < 200000000 := by
  rw [willSeg_length]
  have h1 := userPropertiesLen_le _ h.userProperties
  have h2 := optLen_le h.contentType
  have h3 := optLen_le h.responseTopic
  have h4 := optLen_le h.correlationData
  have h5 := optNumLen_le v.willDelay
  have h6 := optNumLen_le w.payloadFormat
  have h7 := optNumLen_le w.messageExpiry
  omega

theorem connectBody_lt (v : ConnectView) (h : ConnectFits v) : (connectBody v).length < 4294967296 := by
  have hs : ∀ seg : Bytes, seg.length < 1000000000 → (section5 seg).length < 1000000010 := by
    intro seg hseg
    have : (vliBytes seg.length).length ≤ 5 := by
      rw [vliBytes_eq]; exact encodeRL_length_le 4 _ (by simp; omega)
    simp only [section5, List.length_append]; omega
  have h0 : (connectSeg v).length < 1000000000 := by
    rw [connectSeg_length]
    have h1 := userPropertiesLen_le _ h.userProperties
    have h2 := optLen_le h.authMethod
    have h3 := optLen_le h.authData
    have h4 := optNumLen_le v.sessionExpiry
    have h5 := optNumLen_le v.receiveMaximum
    have h6 := optNumLen_le v.maximumPacketSize
    have h7 := optNumLen_le v.topicAliasMaximum
    have h8 := optNumLen_le v.requestResponse
    have h9 := optNumLen_le v.requestProblem
    omega
  have hw : (optWillBytes v v.will).length < 1000200010 := by
    cases hv : v.will with
    | none => simp [optWillBytes]
    | some w =>
      have hf := h.will w hv
      have h1 := willSeg_lt v w hf
      have h2 := hs (willSeg v w) (by omega)
      have h3 := hf.topic
      have h4 := hf.payload
      unfold Short at h3 h4
      simp only [optWillBytes, willBytes, List.length_append, prefixed_length]
      omega
  have h1 := hs _ h0
  have h2 := h.clientId
  have h3 := optLen_le h.username
  have h4 := optLen_le h.password
  unfold Short at h2
  simp only [connectBody, List.length_append, List.length_cons, prefixed_length, optPrefixed_length, be16_length,
    List.length_nil]
  omega

theorem frame_head {b1 : UInt8} {body : Bytes} {steps : List Step} {type : UInt8} {total : Nat}
    {rest : List Step} (hst : steps = .u8 type :: .vli (u32 total) :: rest)
    (hok : (pushSteps steps).2 = true) (_ : Framed b1 body (stepsBytes steps)) (hlen : body.length = total)
    (hlt : total < 4294967296) : body.length ≤ maxVli := by
  obtain ⟨_, h⟩ := pushSteps_true hok
  have := h (.vli (u32 total)) (by rw [hst]; simp)
  simp only [Step.Ok] at this
  unfold u32 at this
  rw [Nat.mod_eq_of_lt hlt] at this
  omega

/-- First byte and body of each packet. -/
def headByte : Outgoing → UInt8
  | .connect _ => byte1 1 0
  | .publish v => byte1 3 (publishFlags5 v)
  | .puback _ => byte1 4 0
  | .subscribe _ => byte1 8 2
  | .unsubscribe _ => byte1 10 2
  | .pingreq => byte1 12 0
  | .disconnect _ => byte1 14 0

def bodyOf : Outgoing → Bytes
  | .connect v => connectBody v
  | .publish v => publishBody v
  | .puback v => pubackBody v
  | .subscribe v => V5.subscribeBody v
  | .unsubscribe v => V5.unsubscribeBody v
  | .pingreq => []
  | .disconnect v => disconnectBody v

theorem packetSize_some {t n : Nat} (h : packetSize t = some n) :
    t ≤ maxVli ∧ n = 1 + (vliBytes t).length + t := by
  unfold packetSize at h
  cases hk : vliSize t with
  | none => simp [hk] at h
  | some k =>
    obtain ⟨h1, h2⟩ := vliSize_some hk
    simp [hk] at h
    exact ⟨h1, by omega⟩

theorem subscribe_id_ok {v : SubscribeView} {steps : List Step} (h : subscribeSteps v = some steps)
    (hok : (pushSteps steps).2 = true) (i : Nat) (hi : v.subscriptionIdentifier = some i) : i ≤ maxVli := by
  obtain ⟨_, hall⟩ := pushSteps_true hok
  simp only [subscribeSteps] at h
  cases hl : subscribeLengths v with
  | none => simp [hl] at h
  | some l =>
    obtain ⟨t, p⟩ := l
    simp only [hl, Option.bind_eq_bind, Option.bind_some, Option.some.injEq] at h
    exact hall (.vli i) (by rw [← h]; simp [hi, subIdSteps])

/-- Everything needed about the bytes of an accepted packet. -/
theorem accepted_frame (p : Outgoing) (hf : Fits p) (hs : SizeKnown p) (steps : List Step)
    (h : Accepted p steps) :
    stepsBytes steps = headByte p :: (vliBytes (bodyOf p).length ++ bodyOf p) ∧ (bodyOf p).length ≤ maxVli ∧
    (∀ n, encodedSize p = some n → n = (stepsBytes steps).length) := by
  have finish : ∀ (total : Nat) (b1 : UInt8) (body : Bytes), Framed b1 body (stepsBytes steps) →
      body.length = total → total ≤ maxVli →
      stepsBytes steps = b1 :: (vliBytes body.length ++ body) ∧ body.length ≤ maxVli ∧
      (∀ n, packetSize total = some n → n = (stepsBytes steps).length) := by
    intro total b1 body hfr hlen hmax
    have hb : stepsBytes steps = b1 :: (vliBytes body.length ++ body) := by
      rw [hfr, u32_of_le (by omega)]
    refine ⟨hb, by omega, ?_⟩
    intro n hn
    rw [hb, (packetSize_some hn).2, ← hlen]; simp; omega
  obtain ⟨hsteps, hok⟩ := h
  cases p with
  | connect v =>
    have hf : ConnectFits v := hf
    simp only [packetSteps] at hsteps
    cases hl : connectLengths v with
    | none => simp [connectSteps, hl] at hsteps
    | some l =>
      obtain ⟨t, pr, wp⟩ := l
      obtain ⟨steps', h1, h2, h3, _⟩ := connect_bytes hl fun w hw => by
        have := willSeg_lt v w (hf.will w hw); omega
      rw [hsteps] at h1; simp at h1; subst h1
      have hlt := connectBody_lt v hf
      have hmax : (connectBody v).length ≤ maxVli := by
        simp only [connectSteps, hl, Option.bind_eq_bind, Option.bind_some, Option.some.injEq] at hsteps
        exact frame_head hsteps.symm hok h2 h3 (by omega)
      obtain ⟨f1, f2, _⟩ := finish t _ _ h2 h3 (by omega)
      exact ⟨f1, f2, by intro n hn; simp [encodedSize] at hn⟩
  | publish v =>
    have hf : PublishFits v := hf
    simp only [packetSteps] at hsteps
    cases hl : publishLengths v with
    | none => simp [publishSteps, hl] at hsteps
    | some l =>
      obtain ⟨t, pr⟩ := l
      obtain ⟨steps', h1, h2, h3, _⟩ := publish_bytes hl hf.packetIdQos
      rw [hsteps] at h1; simp at h1; subst h1
      have hmax : t ≤ maxVli := by
        rcases hs with ⟨_, h⟩ | h
        · simp at h
        · simp only [encodedSize, hl, Option.bind_some] at h
          cases hp : packetSize t with
          | none => exact absurd hp h
          | some n => exact (packetSize_some hp).1
      simp only [encodedSize, hl, Option.bind_some]
      exact finish t _ _ h2 h3 hmax
  | puback v =>
    simp only [packetSteps] at hsteps
    cases hl : pubackLengths v with
    | none => simp [pubackSteps, hl] at hsteps
    | some l =>
      obtain ⟨t, pr⟩ := l
      obtain ⟨steps', h1, h2, h3, _⟩ := puback_bytes hl
      rw [hsteps] at h1; simp at h1; subst h1
      have hmax : t ≤ maxVli := by
        rcases hs with ⟨_, h⟩ | h
        · simp at h
        · simp only [encodedSize, hl, Option.bind_some] at h
          cases hp : packetSize t with
          | none => exact absurd hp h
          | some n => exact (packetSize_some hp).1
      simp only [encodedSize, hl, Option.bind_some]
      exact finish t _ _ h2 h3 hmax
  | subscribe v =>
    simp only [packetSteps] at hsteps
    cases hl : subscribeLengths v with
    | none => simp [subscribeSteps, hl] at hsteps
    | some l =>
      obtain ⟨t, pr⟩ := l
      obtain ⟨steps', h1, h2, h3, _⟩ := subscribe_bytes hl (subscribe_id_ok hsteps hok)
      rw [hsteps] at h1; simp at h1; subst h1
      have hmax : t ≤ maxVli := by
        rcases hs with ⟨_, h⟩ | h
        · simp at h
        · simp only [encodedSize, hl, Option.bind_some] at h
          cases hp : packetSize t with
          | none => exact absurd hp h
          | some n => exact (packetSize_some hp).1
      simp only [encodedSize, hl, Option.bind_some]
      exact finish t _ _ h2 h3 hmax
  | unsubscribe v =>
    simp only [packetSteps] at hsteps
    cases hl : unsubscribeLengths v with
    | none => simp [unsubscribeSteps, hl] at hsteps
    | some l =>
      obtain ⟨t, pr⟩ := l
      obtain ⟨steps', h1, h2, h3, _⟩ := unsubscribe_bytes hl
      rw [hsteps] at h1; simp at h1; subst h1
      have hmax : t ≤ maxVli := by
        rcases hs with ⟨_, h⟩ | h
        · simp at h
        · simp only [encodedSize, hl, Option.bind_some] at h
          cases hp : packetSize t with
          | none => exact absurd hp h
          | some n => exact (packetSize_some hp).1
      simp only [encodedSize, hl, Option.bind_some]
      exact finish t _ _ h2 h3 hmax
  | pingreq =>
    simp only [packetSteps, Option.some.injEq] at hsteps
    subst hsteps
    refine ⟨?_, by simp [bodyOf], ?_⟩
    · decide +kernel
    · intro n hn
      simp [encodedSize] at hn; subst hn; rfl
  | disconnect v =>
    simp only [packetSteps] at hsteps
    cases hl : disconnectLengths v with
    | none => simp [disconnectSteps, hl] at hsteps
    | some l =>
      obtain ⟨t, pr⟩ := l
      obtain ⟨steps', h1, h2, h3, _⟩ := disconnect_bytes hl
      rw [hsteps] at h1; simp at h1; subst h1
      have hmax : t ≤ maxVli := by
        rcases hs with ⟨_, h⟩ | h
        · simp at h
        · simp only [encodedSize, hl, Option.bind_some] at h
          cases hp : packetSize t with
          | none => exact absurd hp h
          | some n => exact (packetSize_some hp).1
      simp only [encodedSize, hl, Option.bind_some]
      exact finish t _ _ h2 h3 hmax

/-- C21: an accepted packet is a first byte, the shortest encoding of the length of the rest, and the rest;
and the size the client computed beforehand is the number of bytes written. That the property lengths are
those of the property sections is part of C22: the grammar's reader takes exactly that many bytes. -/
theorem C21_lengths (p : Outgoing) (hf : Fits p) (hs : SizeKnown p) (steps : List Step)
    (h : Accepted p steps) :
    ∃ b1 vs body, stepsBytes steps = b1 :: vs ++ body ∧ Spec.Varint body.length vs ∧ vs.length ≤ 4 ∧
      (∀ n, encodedSize p = some n → n = (stepsBytes steps).length) := by
  obtain ⟨h1, h2, h3⟩ := accepted_frame p hf hs steps h
  refine ⟨headByte p, vliBytes (bodyOf p).length, bodyOf p, by rw [h1]; simp, ?_, vliBytes_length_le _ h2, h3⟩
  rw [vliBytes_eq]; exact encodeRL_varint _

/-! ### Flag bytes -/

theorem publish_byte (v : PublishView) (h : v.qos ≤ 2) :
    (byte1 3 (publishFlags5 v)).toNat / 16 = 3 ∧ (byte1 3 (publishFlags5 v)).toNat % 16 / 2 % 4 = v.qos ∧
    ((byte1 3 (publishFlags5 v)).toNat % 16 / 8 == 1) = v.duplicate ∧
    ((byte1 3 (publishFlags5 v)).toNat % 16 % 2 == 1) = v.retain := by
  have hq : v.qos = 0 ∨ v.qos = 1 ∨ v.qos = 2 := by omega
  unfold publishFlags5
  rcases hq with hq | hq | hq <;> rw [hq] <;> cases v.duplicate <;> cases v.retain <;> decide +kernel

theorem subscription_byte (s : SubscriptionView) (h : s.qos ≤ 2) (hr : s.retainHandling ≤ 2) :
    (subscriptionFlags s).toNat / 64 = 0 ∧ (subscriptionFlags s).toNat % 4 = s.qos ∧
    ((subscriptionFlags s).toNat / 4 % 2 == 1) = s.noLocal ∧
    ((subscriptionFlags s).toNat / 8 % 2 == 1) = s.retainAsPublished ∧
    (subscriptionFlags s).toNat / 16 % 4 = s.retainHandling := by
  have hq : s.qos = 0 ∨ s.qos = 1 ∨ s.qos = 2 := by omega
  have hh : s.retainHandling = 0 ∨ s.retainHandling = 1 ∨ s.retainHandling = 2 := by omega
  unfold subscriptionFlags
  rcases hq with hq | hq | hq <;> rcases hh with hh | hh | hh <;> rw [hq, hh] <;> cases s.noLocal <;>
    cases s.retainAsPublished <;> decide +kernel

theorem connect_byte (v : ConnectView) (h : ∀ w, v.will = some w → w.qos ≤ 2) :
    (V5.connectFlags v).toNat % 2 = 0 ∧ ((V5.connectFlags v).toNat / 2 % 2 == 1) = v.cleanStart ∧
    ((V5.connectFlags v).toNat / 4 % 2 == 1) = v.will.isSome ∧
    (∀ w, v.will = some w → (V5.connectFlags v).toNat / 8 % 4 = w.qos ∧
      ((V5.connectFlags v).toNat / 32 % 2 == 1) = w.retain) ∧
    ((V5.connectFlags v).toNat / 64 % 2 == 1) = v.password.isSome ∧
    ((V5.connectFlags v).toNat / 128 % 2 == 1) = v.username.isSome := by
  unfold V5.connectFlags
  cases hw : v.will with
  | none =>
    simp only [reduceCtorEq, false_implies, implies_true, true_and]
    cases v.cleanStart <;> cases v.password.isSome <;> cases v.username.isSome <;> decide +kernel
  | some w =>
    have hq : w.qos = 0 ∨ w.qos = 1 ∨ w.qos = 2 := by have := h w hw; omega
    have key : ∀ (c r p u : Bool) (q : Nat), (q = 0 ∨ q = 1 ∨ q = 2) →
        let f : UInt8 := if c then 2 else 0
        let f : UInt8 := f ||| (4 : UInt8) ||| (UInt8.ofNat q <<< (3 : UInt8))
        let f : UInt8 := if r then f ||| 32 else f
        let f : UInt8 := if p then f ||| 64 else f
        let f : UInt8 := if u then f ||| 128 else f
        f.toNat % 2 = 0 ∧ (f.toNat / 2 % 2 == 1) = c ∧ (f.toNat / 4 % 2 == 1) = true ∧
        f.toNat / 8 % 4 = q ∧ (f.toNat / 32 % 2 == 1) = r ∧ (f.toNat / 64 % 2 == 1) = p ∧
        (f.toNat / 128 % 2 == 1) = u := by
      intro c r p u q hq
      rcases hq with rfl | rfl | rfl <;> cases c <;> cases r <;> cases p <;> cases u <;> decide +kernel
    obtain ⟨h1, h2, h3, h4, h5, h6, h7⟩ := key v.cleanStart w.retain v.password.isSome v.username.isSome w.qos hq
    refine ⟨h1, h2, h3, ?_, h6, h7⟩
    intro w' hw'
    simp at hw'; subst hw'
    exact ⟨h4, h5⟩

/-! ### Reading each packet -/

theorem short_lt {s : Bytes} (h : Short s) : s.length < 65536 := by unfold Short at h; omega

theorem user_lt {ps : List UserProperty} (h : UserFits ps) :
    ∀ p ∈ ps, p.name.length < 65536 ∧ p.value.length < 65536 := fun p hp =>
  ⟨short_lt (h.2 p hp).1, short_lt (h.2 p hp).2⟩

theorem packet_of_frame {b1 : UInt8} {body : Bytes} (h : body.length ≤ maxVli) (t f : Nat)
    (ht : b1.toNat / 16 = t) (hf : b1.toNat % 16 = f) :
    packet (b1 :: (vliBytes body.length ++ body)) = dispatch t f body := by
  subst ht hf
  unfold packet
  rw [frame_steps b1 body h]
  rfl

theorem byte1_nibbles :
    (byte1 1 0).toNat / 16 = 1 ∧ (byte1 1 0).toNat % 16 = 0 ∧ (byte1 4 0).toNat / 16 = 4 ∧
    (byte1 4 0).toNat % 16 = 0 ∧ (byte1 8 2).toNat / 16 = 8 ∧ (byte1 8 2).toNat % 16 = 2 ∧
    (byte1 10 2).toNat / 16 = 10 ∧ (byte1 10 2).toNat % 16 = 2 ∧ (byte1 12 0).toNat / 16 = 12 ∧
    (byte1 12 0).toNat % 16 = 0 ∧ (byte1 14 0).toNat / 16 = 14 ∧ (byte1 14 0).toNat % 16 = 0 := by
  decide +kernel

theorem properties_seg {seg : Bytes} {ps : List Property} (h : Reads seg ps) (hl : seg.length ≤ maxVli)
    (r : Bytes) : properties (section5 seg ++ r) = some (ps, r) := by
  unfold section5
  rw [List.append_assoc]
  exact properties_section h hl r

theorem read_publish (v : PublishView) (hf : PublishFits v) (hseg : (publishSeg v).length ≤ maxVli)
    (hids : ∀ i ∈ v.subscriptionIdentifiers, i ≤ maxVli) (flags : Nat) (h1 : flags / 2 % 4 = v.qos)
    (h2 : (flags / 8 == 1) = v.duplicate) (h3 : (flags % 2 == 1) = v.retain) :
    publish flags (publishBody v) = some (meaning (.publish v)) := by
  have hreads : Reads (publishSeg v)
      (optNum 1 v.payloadFormat ++ (optNum 2 v.messageExpiry ++ (optNum 35 v.topicAlias ++
        (optText 8 v.responseTopic ++ (optText 9 v.correlationData ++
        (v.subscriptionIdentifiers.map (fun i => ⟨11, .num i⟩) ++ (optText 3 v.contentType ++
        userProps v.userProperties))))))) :=
    (reads_optU8 1 _ (by decide) rfl hf.payloadFormat).append <|
    (reads_optU32 2 _ (by decide) rfl hf.messageExpiry).append <|
    (reads_optU16 35 _ (by decide) rfl hf.topicAlias).append <|
    (reads_optCursor 8 _ (by decide) rfl fun s hs => short_lt (hf.responseTopic s hs)).append <|
    (reads_optCursor 9 _ (by decide) rfl fun s hs => short_lt (hf.correlationData s hs)).append <|
    (reads_subscriptionIds _ hids).append <|
    (reads_optCursor 3 _ (by decide) rfl fun s hs => short_lt (hf.contentType s hs)).append <|
    reads_userProperties _ (user_lt hf.userProperties)
  have hopt : ∀ r, Spec5.optional (v.qos != 0) two
      ((if v.qos ≠ 0 then be16 (UInt16.ofNat v.packetId) else []) ++ r) =
        some (if v.qos = 0 then none else some v.packetId, r) := by
    intro r
    unfold Spec5.optional
    by_cases h0 : v.qos = 0
    · simp [h0]
    · have hb : (v.qos != 0) = true := by simp [h0]
      have hn : v.qos ≠ 0 := h0
      rw [if_pos hb, if_pos hn, two_be16 _ hf.packetId, if_neg h0]; rfl
  unfold publish
  simp only [h1, h2, h3, publishBody, text_steps _ (short_lt hf.topic), Option.bind_eq_bind, Option.bind_some,
    hopt, properties_seg hreads hseg]
  rw [if_neg (by have := hf.qos; omega)]
  simp [meaning]

theorem read_puback (v : PubackView) (hf : PubackFits v) (hseg : (pubackSeg v).length ≤ maxVli) :
    puback (pubackBody v) = some (meaning (.puback v)) := by
  have hreads : Reads (pubackSeg v) (optText 31 v.reasonString ++ userProps v.userProperties) :=
    (reads_optCursor 31 _ (by decide) rfl fun s hs => short_lt (hf.reasonString s hs)).append <|
    reads_userProperties _ (user_lt hf.userProperties)
  unfold puback pubackBody
  rw [two_be16 _ hf.packetId]
  simp only [Option.bind_eq_bind, Option.bind_some]
  by_cases h0 : pubackSeg v = []
  · have hnil : optText 31 v.reasonString ++ userProps v.userProperties = [] := by
      have := hreads.1
      rw [h0] at this
      exact List.length_eq_zero_iff.mp (by simpa using this)
    rw [if_pos h0]
    by_cases hr : v.reasonCode = 0
    · rw [if_pos hr, if_pos rfl]
      simp only [meaning, hr, hnil]
    · rw [if_neg hr, if_neg (by simp), byte_ofNat _ hf.reasonCode]
      simp only [Option.bind_some, if_true, meaning, hnil]
  · rw [if_neg h0, if_neg (by simp), byte_ofNat _ hf.reasonCode]
    simp only [Option.bind_some]
    have hne : ¬ section5 (pubackSeg v) = [] := by
      intro h
      simp [section5] at h
      exact h0 h.2
    rw [if_neg hne]
    have := properties_seg hreads hseg []
    rw [List.append_nil] at this
    rw [this]
    simp [meaning]

theorem read_disconnect (v : DisconnectView) (hf : DisconnectFits v)
    (hseg : (disconnectSeg v).length ≤ maxVli) :
    disconnect (disconnectBody v) = some (meaning (.disconnect v)) := by
  have hreads : Reads (disconnectSeg v) (optNum 17 v.sessionExpiry ++ (optText 31 v.reasonString ++
      (optText 28 v.serverReference ++ userProps v.userProperties))) :=
    (reads_optU32 17 _ (by decide) rfl hf.sessionExpiry).append <|
    (reads_optCursor 31 _ (by decide) rfl fun s hs => short_lt (hf.reasonString s hs)).append <|
    (reads_optCursor 28 _ (by decide) rfl fun s hs => short_lt (hf.serverReference s hs)).append <|
    reads_userProperties _ (user_lt hf.userProperties)
  unfold disconnect disconnectBody
  rw [if_neg (by simp), byte_ofNat _ hf.reasonCode]
  simp only [Option.bind_eq_bind, Option.bind_some]
  have hne : ¬ section5 (disconnectSeg v) = [] := by
    intro h
    have hl := congrArg List.length h
    simp only [section5, List.length_append, List.length_nil] at hl
    have : 1 ≤ (vliBytes (disconnectSeg v).length).length := by rw [vliBytes_eq]; exact encodeRL_length_pos _
    omega
  rw [if_neg hne]
  have := properties_seg hreads hseg []
  rw [List.append_nil] at this
  rw [this]
  simp [meaning]

/-- Items written one after the other are read back. -/
theorem many_flatMap {α β : Type} (read : Bytes → Option (β × Bytes)) (write : α → Bytes) (g : α → β)
    (xs : List α) (hr : ∀ x ∈ xs, ∀ r, read (write x ++ r) = some (g x, r))
    (hw : ∀ x ∈ xs, 1 ≤ (write x).length) (n : Nat) (hn : (xs.flatMap write).length ≤ n) :
    many read n (xs.flatMap write) = some (xs.map g) := by
  induction xs generalizing n with
  | nil => cases n <;> simp [many]
  | cons x xs ih =>
    have h1 := hw x (by simp)
    rw [List.flatMap_cons] at hn ⊢
    rw [List.length_append] at hn
    obtain ⟨n, rfl⟩ : ∃ k, n = k + 1 := ⟨n - 1, by omega⟩
    have hx := hr x (by simp) (xs.flatMap write)
    have ih := ih (fun y hy => hr y (List.mem_cons_of_mem _ hy)) (fun y hy => hw y (List.mem_cons_of_mem _ hy)) n
      (by omega)
    cases hwx : write x with
    | nil => rw [hwx] at h1; simp at h1
    | cons b rest =>
      rw [hwx] at hx
      rw [List.cons_append] at hx ⊢
      rw [many]
      · simp only [hx, Option.bind_eq_bind, Option.bind_some, ih, List.map_cons]
      · simp

theorem filters_eq (fs : List SubscriptionView) :
    filtersBytes fs = fs.flatMap fun s => stepsBytes (prefixed s.topicFilter) ++ [subscriptionFlags s] := by
  induction fs with
  | nil => rfl
  | cons f fs ih =>
    simp only [filtersBytes, List.flatMap_cons, stepsBytes_append] at ih ⊢
    rw [ih]
    simp [Step.bytes]

theorem texts_eq (fs : List Bytes) :
    stepsBytes (fs.flatMap prefixed) = fs.flatMap fun s => stepsBytes (prefixed s) := by
  induction fs with
  | nil => rfl
  | cons f fs ih => rw [List.flatMap_cons, List.flatMap_cons, stepsBytes_append, ih]

theorem read_subscribe (v : SubscribeView) (hf : SubscribeFits v) (hseg : (subscribeSeg v).length ≤ maxVli)
    (hid : ∀ i, v.subscriptionIdentifier = some i → i ≤ maxVli) :
    subscribe (V5.subscribeBody v) = some (meaning (.subscribe v)) := by
  have hsid : Reads (stepsBytes (subIdSteps v.subscriptionIdentifier)) (optNum 11 v.subscriptionIdentifier) := by
    cases hs : v.subscriptionIdentifier with
    | none => exact Reads.nil
    | some i => exact reads_vli 11 i (by decide) rfl (hid i hs)
  have hreads : Reads (subscribeSeg v) (optNum 11 v.subscriptionIdentifier ++ userProps v.userProperties) :=
    hsid.append <| reads_userProperties _ (user_lt hf.userProperties)
  have hmany : many filter (filtersBytes v.subscriptions).length (filtersBytes v.subscriptions) =
      some (v.subscriptions.map fun s =>
        { filter := s.topicFilter, qos := s.qos, noLocal := s.noLocal, retainAsPublished := s.retainAsPublished,
          retainHandling := s.retainHandling }) := by
    rw [filters_eq]
    apply many_flatMap
    · intro s hs r
      obtain ⟨h1, h2, h3⟩ := hf.filters s hs
      obtain ⟨b1, b2, b3, b4, b5⟩ := subscription_byte s h2 h3
      unfold filter
      rw [List.append_assoc, text_steps _ (short_lt h1)]
      simp only [Option.bind_eq_bind, Option.bind_some, List.cons_append, List.nil_append, byte_cons, b1, b2, b3, b4, b5,
        if_true]
    · intro s _; simp
    · exact Nat.le_refl _
  unfold subscribe V5.subscribeBody
  rw [two_be16 _ hf.packetId]
  simp only [Option.bind_eq_bind, Option.bind_some, properties_seg hreads hseg, hmany]
  simp [meaning]

theorem read_unsubscribe (v : UnsubscribeView) (hf : UnsubscribeFits v)
    (hseg : (stepsBytes (userPropertySteps v.userProperties)).length ≤ maxVli) :
    unsubscribe (V5.unsubscribeBody v) = some (meaning (.unsubscribe v)) := by
  have hreads := reads_userProperties _ (user_lt hf.userProperties)
  have hmany : many text (stepsBytes (v.topicFilters.flatMap prefixed)).length
      (stepsBytes (v.topicFilters.flatMap prefixed)) = some (v.topicFilters.map id) := by
    rw [texts_eq]
    apply many_flatMap
    · intro s hs r; exact text_steps _ (short_lt (hf.filters s hs)) r
    · intro s _; simp; omega
    · exact Nat.le_refl _
  unfold unsubscribe V5.unsubscribeBody
  rw [two_be16 _ hf.packetId]
  simp only [Option.bind_eq_bind, Option.bind_some, properties_seg hreads hseg, hmany]
  simp [meaning]

theorem read_optPrefixed (o : Option Bytes) (h : OptShort o) (r : Bytes) :
    Spec5.optional o.isSome text (stepsBytes (optPrefixed o) ++ r) = some (o, r) := by
  cases o with
  | none => rfl
  | some s =>
    unfold Spec5.optional
    simp only [Option.isSome_some, if_true, optPrefixed]
    rw [text_steps _ (short_lt (h s rfl))]; rfl

theorem read_connect (v : ConnectView) (hf : ConnectFits v) (hseg : (connectSeg v).length ≤ maxVli)
    (hwseg : ∀ w, v.will = some w → (willSeg v w).length ≤ maxVli) :
    connect (connectBody v) = some (meaning (.connect v)) := by
  have hreads : Reads (connectSeg v)
      (optNum 17 v.sessionExpiry ++ (optNum 33 v.receiveMaximum ++ (optNum 39 v.maximumPacketSize ++
        (optNum 34 v.topicAliasMaximum ++ (optNum 25 v.requestResponse ++ (optNum 23 v.requestProblem ++
        (optText 21 v.authMethod ++ (optText 22 v.authData ++ userProps v.userProperties)))))))) :=
    (reads_optU32 17 _ (by decide) rfl hf.sessionExpiry).append <|
    (reads_optU16 33 _ (by decide) rfl hf.receiveMaximum).append <|
    (reads_optU32 39 _ (by decide) rfl hf.maximumPacketSize).append <|
    (reads_optU16 34 _ (by decide) rfl hf.topicAliasMaximum).append <|
    (reads_optU8 25 _ (by decide) rfl hf.requestResponse).append <|
    (reads_optU8 23 _ (by decide) rfl hf.requestProblem).append <|
    (reads_optCursor 21 _ (by decide) rfl fun s hs => short_lt (hf.authMethod s hs)).append <|
    (reads_optCursor 22 _ (by decide) rfl fun s hs => short_lt (hf.authData s hs)).append <|
    reads_userProperties _ (user_lt hf.userProperties)
  obtain ⟨f1, f2, f3, f4, f5, f6⟩ := connect_byte v fun w hw => (hf.will w hw).qos
  have hwill : ∀ r, Spec5.optional v.will.isSome (will (V5.connectFlags v).toNat) (optWillBytes v v.will ++ r) =
      some (v.will.map fun w =>
        { qos := w.qos, retain := w.retain, topic := w.topic, payload := w.payload,
          props := optNum 24 v.willDelay ++ optNum 1 w.payloadFormat ++ optNum 2 w.messageExpiry ++
            optText 3 w.contentType ++ optText 8 w.responseTopic ++ optText 9 w.correlationData ++
            userProps w.userProperties }, r) := by
    intro r
    cases hw : v.will with
    | none => rfl
    | some w =>
      have hwf := hf.will w hw
      obtain ⟨g1, g2⟩ := f4 w hw
      have hwr : Reads (willSeg v w) (optNum 24 v.willDelay ++ (optNum 1 w.payloadFormat ++
          (optNum 2 w.messageExpiry ++ (optText 3 w.contentType ++ (optText 8 w.responseTopic ++
          (optText 9 w.correlationData ++ userProps w.userProperties)))))) :=
        (reads_optU32 24 _ (by decide) rfl hf.willDelay).append <|
        (reads_optU8 1 _ (by decide) rfl hwf.payloadFormat).append <|
        (reads_optU32 2 _ (by decide) rfl hwf.messageExpiry).append <|
        (reads_optCursor 3 _ (by decide) rfl fun s hs => short_lt (hwf.contentType s hs)).append <|
        (reads_optCursor 8 _ (by decide) rfl fun s hs => short_lt (hwf.responseTopic s hs)).append <|
        (reads_optCursor 9 _ (by decide) rfl fun s hs => short_lt (hwf.correlationData s hs)).append <|
        reads_userProperties _ (user_lt hwf.userProperties)
      unfold Spec5.optional
      simp only [Option.isSome_some, if_true, optWillBytes, willBytes, Option.map_some]
      unfold will
      rw [List.append_assoc, properties_seg hwr (hwseg w hw), List.append_assoc]
      simp only [Option.bind_eq_bind, Option.bind_some, text_steps _ (short_lt hwf.topic),
        text_steps _ (short_lt hwf.payload), g1, g2]
      simp
  have hname : ∀ r : Bytes, text ([0x00, 0x04, 0x4D, 0x51, 0x54, 0x54, 0x05] ++ r) =
      some ([77, 81, 84, 84], 5 :: r) := by
    intro r
    simp [text, two, raw]
  have huser := read_optPrefixed v.username hf.username
  have hpass := read_optPrefixed v.password hf.password []
  rw [List.append_nil] at hpass
  unfold connect connectBody
  rw [hname]
  simp only [Option.bind_eq_bind, Option.bind_some, byte_cons, two_be16 _ hf.keepAlive, properties_seg hreads hseg,
    text_steps _ (short_lt hf.clientId), f3, f5, f6, hwill, huser, hpass, f2]
  rw [if_pos (by simp [f1])]
  simp [meaning]

/-- C22: the bytes of an accepted packet, read according to the MQTT 5 grammar, are the packet with exactly
the fields of the view: nothing lost, added or changed. -/
theorem C22_meaning (p : Outgoing) (hf : Fits p) (hs : SizeKnown p) (steps : List Step)
    (h : Accepted p steps) : packet (stepsBytes steps) = some (meaning p) := by
  obtain ⟨hb, hmax, _⟩ := accepted_frame p hf hs steps h
  rw [hb]
  obtain ⟨n1, m1, n4, m4, n8, m8, n10, m10, n12, m12, n14, m14⟩ := byte1_nibbles
  obtain ⟨hsteps, hok⟩ := h
  cases p with
  | connect v =>
    have hf : ConnectFits v := hf
    simp only [packetSteps] at hsteps
    cases hl : connectLengths v with
    | none => simp [connectSteps, hl] at hsteps
    | some l =>
      obtain ⟨t, pr, wp⟩ := l
      obtain ⟨_, _, _, _, h4, h5⟩ := connect_bytes hl fun w hw => by
        have := willSeg_lt v w (hf.will w hw); omega
      rw [packet_of_frame hmax 1 0 (by exact n1) (by exact m1)]
      exact read_connect v hf h4 h5
  | publish v =>
    have hf : PublishFits v := hf
    simp only [packetSteps] at hsteps
    cases hl : publishLengths v with
    | none => simp [publishSteps, hl] at hsteps
    | some l =>
      obtain ⟨t, pr⟩ := l
      obtain ⟨_, _, _, _, h4, h5⟩ := publish_bytes hl hf.packetIdQos
      obtain ⟨b1, b2, b3, b4⟩ := publish_byte v hf.qos
      rw [packet_of_frame hmax 3 _ (by exact b1) rfl]
      exact read_publish v hf h4 h5 _ b2 b3 b4
  | puback v =>
    simp only [packetSteps] at hsteps
    cases hl : pubackLengths v with
    | none => simp [pubackSteps, hl] at hsteps
    | some l =>
      obtain ⟨t, pr⟩ := l
      obtain ⟨_, _, _, _, h4⟩ := puback_bytes hl
      rw [packet_of_frame hmax 4 0 (by exact n4) (by exact m4)]
      exact read_puback v hf h4
  | subscribe v =>
    simp only [packetSteps] at hsteps
    cases hl : subscribeLengths v with
    | none => simp [subscribeSteps, hl] at hsteps
    | some l =>
      obtain ⟨t, pr⟩ := l
      obtain ⟨_, _, _, _, h4⟩ := subscribe_bytes hl (subscribe_id_ok hsteps hok)
      rw [packet_of_frame hmax 8 2 (by exact n8) (by exact m8)]
      exact read_subscribe v hf h4 (subscribe_id_ok hsteps hok)
  | unsubscribe v =>
    simp only [packetSteps] at hsteps
    cases hl : unsubscribeLengths v with
    | none => simp [unsubscribeSteps, hl] at hsteps
    | some l =>
      obtain ⟨t, pr⟩ := l
      obtain ⟨_, _, _, _, h4⟩ := unsubscribe_bytes hl
      rw [packet_of_frame hmax 10 2 (by exact n10) (by exact m10)]
      exact read_unsubscribe v hf h4
  | pingreq => rw [packet_of_frame hmax 12 0 (by exact n12) (by exact m12)]; rfl
  | disconnect v =>
    simp only [packetSteps] at hsteps
    cases hl : disconnectLengths v with
    | none => simp [disconnectSteps, hl] at hsteps
    | some l =>
      obtain ⟨t, pr⟩ := l
      obtain ⟨_, _, _, _, h4⟩ := disconnect_bytes hl
      rw [packet_of_frame hmax 14 0 (by exact n14) (by exact m14)]
      exact read_disconnect v hf h4

/-- The packet that reaches the wire: a PUBLISH goes through the alias resolver, if there is one. -/
def Resolved (e : Encoder) (p q : Outgoing) : Prop :=
  match p, e.resolver with
  | .publish v, some r => ∃ r' topic alias, TopicAlias.beginPublish r v.topic v.topicAlias = .ok r' topic alias ∧
      q = .publish { v with topic := topic, topicAlias := alias }
  | p, _ => q = p

theorem append_accepted {e e' : Encoder} {p : Outgoing} (h : e.append p = .ok e') :
    ∃ q steps, Resolved e p q ∧ Accepted q steps ∧ e'.steps = e.steps ++ steps := by
  have push : ∀ (e₀ : Encoder) (q : Outgoing), e₀.steps = e.steps → e₀.push (packetSteps q) = .ok e' →
      ∃ steps, Accepted q steps ∧ e'.steps = e.steps ++ steps := by
    intro e₀ q h0 hp
    unfold Encoder.push at hp
    cases hq : packetSteps q with
    | none => rw [hq] at hp; simp at hp
    | some steps =>
      rw [hq] at hp
      simp only at hp
      split at hp
      · rename_i ht
        refine ⟨steps, ⟨hq, ht⟩, ?_⟩
        simp only [Appended.ok.injEq] at hp
        subst hp
        rw [(pushSteps_true ht).1, h0]
      · simp at hp
  cases p with
  | publish v =>
    unfold Encoder.append at h
    cases hr : e.resolver with
    | none =>
      rw [hr] at h
      obtain ⟨steps, h1, h2⟩ := push e (.publish v) rfl h
      exact ⟨.publish v, steps, by simp [Resolved, hr], h1, h2⟩
    | some r =>
      rw [hr] at h
      simp only at h
      cases hb : TopicAlias.beginPublish r v.topic v.topicAlias with
      | refused => rw [hb] at h; simp at h
      | abort => rw [hb] at h; simp at h
      | ok r' topic alias =>
        rw [hb] at h
        simp only at h
        obtain ⟨steps, h1, h2⟩ := push { e with resolver := some r' } (.publish { v with topic := topic, topicAlias := alias }) rfl h
        exact ⟨_, steps, by simp only [Resolved, hr]; exact ⟨r', topic, alias, hb, rfl⟩, h1, h2⟩
  | connect v => obtain ⟨steps, h1, h2⟩ := push e (.connect v) rfl h; exact ⟨_, steps, rfl, h1, h2⟩
  | puback v => obtain ⟨steps, h1, h2⟩ := push e (.puback v) rfl h; exact ⟨_, steps, rfl, h1, h2⟩
  | subscribe v => obtain ⟨steps, h1, h2⟩ := push e (.subscribe v) rfl h; exact ⟨_, steps, rfl, h1, h2⟩
  | unsubscribe v => obtain ⟨steps, h1, h2⟩ := push e (.unsubscribe v) rfl h; exact ⟨_, steps, rfl, h1, h2⟩
  | pingreq => obtain ⟨steps, h1, h2⟩ := push e .pingreq rfl h; exact ⟨_, steps, rfl, h1, h2⟩
  | disconnect v => obtain ⟨steps, h1, h2⟩ := push e (.disconnect v) rfl h; exact ⟨_, steps, rfl, h1, h2⟩

/-- C22 at the encoder's interface: appending a packet to an idle encoder and draining it into one buffer
gives one MQTT 5 packet that means what was asked for (with the topic and alias the resolver chose). -/
theorem C22_sent (e e' e'' : Encoder) (p : Outgoing) (hidle : e.steps = []) (h : e.append p = .ok e')
    (hfit : ∀ q, Resolved e p q → Fits q ∧ SizeKnown q) (cap : Nat) (out : Bytes)
    (hd : e'.encodeToBuffer ⟨cap, []⟩ = (.finished, ⟨cap, out⟩, e'')) :
    ∃ q, Resolved e p q ∧ packet out = some (meaning q) := by
  obtain ⟨q, steps, h1, h2, h3⟩ := append_accepted h
  obtain ⟨hf, hs⟩ := hfit q h1
  refine ⟨q, h1, ?_⟩
  rw [hidle, List.nil_append] at h3
  have hmean := C22_meaning q hf hs steps h2
  have hok : ∀ s ∈ e'.steps, s.Ok := by rw [h3]; exact (pushSteps_true h2.2).2
  obtain ⟨out', ho, _, hbytes, _, hcase⟩ := encodeSteps_spec e'.steps hok ⟨cap, []⟩ (by simp)
  unfold Encoder.encodeToBuffer at hd
  rcases hx : encodeSteps e'.steps ⟨cap, []⟩ with ⟨res, b', rest⟩
  rw [hx] at hd ho hbytes hcase
  simp only at hd ho hbytes hcase
  rcases hcase with ⟨r1, r2⟩ | ⟨r1, _⟩
  · subst r1; subst r2; subst ho
    simp at hd hbytes
    rw [← hd.1, ← hbytes, h3]
    exact hmean
  · subst r1; simp at hd

/-! ### Cases -/

def examplePublish : PublishView :=
  { topic := [97, 47, 98], payload := [1, 2, 3], qos := 1, packetId := 7, retain := true,
    payloadFormat := some 1, messageExpiry := some 60, topicAlias := some 3, responseTopic := some [114],
    correlationData := some [0, 255], contentType := some [116],
    userProperties := [⟨[107], [118]⟩, ⟨[], [120, 121]⟩] }

theorem examplePublish_fits : PublishFits examplePublish := by
  constructor <;> simp [examplePublish, OptLt, OptShort, Short, UserFits]

example : Fits (.publish examplePublish) ∧ SizeKnown (.publish examplePublish) ∧
    ∃ steps, Accepted (.publish examplePublish) steps :=
  ⟨examplePublish_fits, .inr (by decide +kernel), _, rfl, by decide +kernel⟩

example : (packetSteps (.publish examplePublish)).map stepsBytes =
    some [51, 48, 0, 3, 97, 47, 98, 0, 7, 37, 1, 1, 2, 0, 0, 0, 60, 35, 0, 3, 8, 0, 1, 114, 9, 0, 2, 0, 255,
      3, 0, 1, 116, 38, 0, 1, 107, 0, 1, 118, 38, 0, 0, 0, 2, 120, 121, 1, 2, 3] := by
  decide +kernel

def exampleConnect : ConnectView :=
  { clientId := [99], keepAlive := 1200, cleanStart := true, username := some [117], password := some [],
    receiveMaximum := some 10, willDelay := some 5,
    will := some { topic := [119], payload := [100, 101], qos := 2, retain := true, contentType := some [116] },
    userProperties := [⟨[107], [118]⟩] }

theorem exampleConnect_fits : ConnectFits exampleConnect := by
  constructor <;> simp [exampleConnect, OptLt, OptShort, Short, UserFits]
  constructor <;> simp [OptLt, OptShort, Short, UserFits]

example : Fits (.connect exampleConnect) ∧ SizeKnown (.connect exampleConnect) ∧
    ∃ steps, Accepted (.connect exampleConnect) steps :=
  ⟨exampleConnect_fits, .inl ⟨_, rfl⟩, _, rfl, by decide +kernel⟩

/-- The hypothesis on packet identifiers is needed: the length computation looks at the packet identifier
(mqtt5_encoder.c:762), the encoding at the QoS (892). A view with QoS 1 and no identifier announces two
bytes less than it writes. No operation of the client reaches the encoder like this, since identifiers are
assigned before (mqtt5_client.c:2761). -/
theorem C21_identifier_needed :
    ∃ v : PublishView, v.qos = 1 ∧ v.packetId = 0 ∧
      ∃ steps, Accepted (.publish v) steps ∧ frame (stepsBytes steps) = none ∧
        encodedSize (.publish v) ≠ some (stepsBytes steps).length :=
  ⟨{ topic := [97], qos := 1 }, rfl, rfl, _, ⟨rfl, by decide +kernel⟩, by decide +kernel, by decide +kernel⟩

end Mqtt.Props
