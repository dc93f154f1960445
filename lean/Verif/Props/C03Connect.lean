import Verif.Lemmas.Packets311

/-! C03 for CONNECT packets (the other packet types are in `C03.lean`). -/
namespace Mqtt.Props
open Mqtt Mqtt.Spec

/-! ### CONNECT -/

/-- Calls a user of the packet API can make after `aws_mqtt_packet_connect_init`. -/
inductive ConnectCall where
  | credentials (user pass : Bytes)
  | will (topic : Bytes) (qos : Nat) (retain : Bool) (payload : Bytes)
deriving DecidableEq, Repr

/-- The packet built by a sequence of calls. -/
def buildConnect (cid : Bytes) (clean : Bool) (ka : UInt16) (calls : List ConnectCall) : ConnectPacket :=
  calls.foldl (fun p c => match c with
    | .credentials u pw => connectAddCredentials p u pw
    | .will t q r m => connectAddWill p t q r m) (connectInit cid clean ka)

/-- What those calls ask for: the last user name, the last non-empty password, the last will. -/
def requestedConnect (cid : Bytes) (clean : Bool) (ka : UInt16) (calls : List ConnectCall) : Connect :=
  calls.foldl (fun c call => match call with
    | .credentials u pw => { c with username := some u, password := if pw = [] then c.password else some pw }
    | .will t q r m => { c with will := some { topic := t, message := m, qos := q, retain := r } })
    { clientId := cid, cleanSession := clean, keepAlive := ka, will := none, username := none, password := none }

def ConnectCall.isWill : ConnectCall → Bool
  | .will .. => true
  | _ => false

/-- Representation relation between the C struct and what was requested. -/
def Represents (p : ConnectPacket) (c : Connect) : Prop :=
  p = { header := { packetType := CONNECT, remainingLength := c.body.length, flags := 0 }
        cleanSession := c.cleanSession, hasWill := c.will.isSome
        willRetain := (c.will.map (·.retain)).getD false
        hasPassword := c.password.isSome, hasUsername := c.username.isSome, keepAlive := c.keepAlive
        willQos := (c.will.map (·.qos)).getD 0, clientId := c.clientId
        willTopic := (c.will.map (·.topic)).getD [], willMessage := (c.will.map (·.message)).getD []
        username := c.username.getD [], password := c.password.getD [] }

theorem connect_body_length (c : Connect) : c.body.length =
    10 + (2 + c.clientId.length) +
    (match c.will with | none => 0 | some w => 2 + w.topic.length + (2 + w.message.length)) +
    (match c.username with | none => 0 | some u => 2 + u.length) +
    (match c.password with | none => 0 | some p => 2 + p.length) := by
  unfold Connect.body
  cases c.will <;> cases c.username <;> cases c.password <;>
    simp only [optStr, optWill, List.length_append, str_length, u16_length, List.length_cons, List.length_nil] <;> omega

theorem represents_step_credentials (p : ConnectPacket) (c : Connect) (h : Represents p c) (u pw : Bytes) :
    Represents (connectAddCredentials p u pw)
      { c with username := some u, password := if pw = [] then c.password else some pw } := by
  unfold Represents at h ⊢
  rw [connect_body_length] at h ⊢
  subst h
  obtain ⟨cid, clean, ka, will, user, pass⟩ := c
  unfold connectAddCredentials
  cases pw with
  | nil =>
    cases user <;> simp <;> cases will <;> cases pass <;> simp <;> omega
  | cons x xs =>
    cases user <;> simp <;> cases will <;> cases pass <;> simp <;> omega

theorem represents_step_will (p : ConnectPacket) (c : Connect) (h : Represents p c) (hw : c.will = none)
    (t : Bytes) (q : Nat) (r : Bool) (m : Bytes) :
    Represents (connectAddWill p t q r m)
      { c with will := some { topic := t, message := m, qos := q, retain := r } } := by
  unfold Represents at h ⊢
  rw [connect_body_length] at h ⊢
  subst h
  obtain ⟨cid, clean, ka, will, user, pass⟩ := c
  simp only at hw; subst hw
  unfold connectAddWill
  cases user <;> cases pass <;> simp [sizeofEncodedBuffer] <;> omega

/-- Every sequence of calls with at most one will produces the struct of the requested CONNECT with
a truthful remaining length. -/
theorem buildConnect_represents (cid : Bytes) (clean : Bool) (ka : UInt16) (calls : List ConnectCall)
    (hw : calls.countP ConnectCall.isWill ≤ 1) :
    Represents (buildConnect cid clean ka calls) (requestedConnect cid clean ka calls) := by
  have gen : ∀ (calls : List ConnectCall) (p : ConnectPacket) (c : Connect), Represents p c →
      calls.countP ConnectCall.isWill + (if c.will.isSome then 1 else 0) ≤ 1 →
      Represents (calls.foldl (fun p c => match c with
          | .credentials u pw => connectAddCredentials p u pw
          | .will t q r m => connectAddWill p t q r m) p)
        (calls.foldl (fun c call => match call with
          | .credentials u pw => { c with username := some u, password := if pw = [] then c.password else some pw }
          | .will t q r m => { c with will := some { topic := t, message := m, qos := q, retain := r } }) c) := by
    intro calls
    induction calls with
    | nil => intro p c h _; exact h
    | cons call calls ih =>
      intro p c h hc
      cases call with
      | credentials u pw =>
        apply ih _ _ (represents_step_credentials p c h u pw)
        simpa [ConnectCall.isWill] using hc
      | will t q r m =>
        have hnone : c.will = none := by
          cases hcw : c.will with
          | none => rfl
          | some w => simp [ConnectCall.isWill, hcw] at hc
        apply ih _ _ (represents_step_will p c h hnone t q r m)
        rw [List.countP_cons, hnone] at hc
        simp only [ConnectCall.isWill, if_true, Option.isSome_none, Bool.false_eq_true, if_false] at hc
        simp only [Option.isSome_some, if_true]
        omega
  apply gen calls _ _ _ (by simpa using hw)
  unfold Represents
  rw [connect_body_length]
  simp [connectInit, sizeofEncodedBuffer]

/-- The strings of a CONNECT are within their wire limits. -/
def Connect.inLimits (c : Connect) : Prop :=
  c.clientId.length ≤ 65535 ∧
  (∀ w, c.will = some w → w.topic.length ≤ 65535 ∧ w.message.length ≤ 65535 ∧ w.qos ≤ 2) ∧
  (∀ u, c.username = some u → u.length ≤ 65535) ∧
  (∀ p, c.password = some p → p.length ≤ 65535) ∧
  (c.password.isSome → c.username.isSome)

theorem connect_flags_eq (c : Connect) (hq : ∀ w, c.will = some w → w.qos ≤ 2) : connectFlags
      { header := { packetType := CONNECT, remainingLength := c.body.length, flags := 0 }
        cleanSession := c.cleanSession, hasWill := c.will.isSome
        willRetain := (c.will.map (·.retain)).getD false
        hasPassword := c.password.isSome, hasUsername := c.username.isSome, keepAlive := c.keepAlive
        willQos := (c.will.map (·.qos)).getD 0, clientId := c.clientId
        willTopic := (c.will.map (·.topic)).getD [], willMessage := (c.will.map (·.message)).getD []
        username := c.username.getD [], password := c.password.getD [] } = UInt8.ofNat c.flags := by
  simp only [connectFlags, Connect.flags]
  generalize c.password.isSome = a1
  generalize c.username.isSome = a2
  generalize c.cleanSession = a3
  cases hw : c.will with
  | none => cases a1 <;> cases a2 <;> cases a3 <;> rfl
  | some w =>
    have hq := hq w hw
    simp only [Option.isSome_some, Option.map_some, Option.getD_some]
    generalize w.retain = a4
    generalize w.qos = q at *
    have : q = 0 ∨ q = 1 ∨ q = 2 := by omega
    rcases this with rfl | rfl | rfl <;> cases a1 <;> cases a2 <;> cases a3 <;> cases a4 <;> rfl

theorem connect_flags_bits_aux : ∀ (a1 a2 a3 a4 a5 : Bool) (q : Fin 3),
    let f := UInt8.ofNat ((if a3 then 2 else 0) + (if a5 then 4 + 8 * q.val + (if a4 then 32 else 0) else 0)
      + (if a1 then 64 else 0) + (if a2 then 128 else 0))
    decide ((f >>> 1) &&& 1 = 1) = a3 ∧
    decide ((f >>> 2) &&& 1 = 1) = a5 ∧
    ((f >>> 3) &&& 3).toNat = (if a5 then q.val else 0) ∧
    decide ((f >>> 5) &&& 1 = 1) = (a5 && a4) ∧
    decide ((f >>> 6) &&& 1 = 1) = a1 ∧
    decide ((f >>> 7) &&& 1 = 1) = a2 := by
  decide +kernel

theorem connect_flags_bits (c : Connect) (hq : ∀ w, c.will = some w → w.qos ≤ 2) (f : UInt8)
    (hf : UInt8.ofNat c.flags = f) :
    decide ((f >>> 1) &&& 1 = 1) = c.cleanSession ∧
    decide ((f >>> 2) &&& 1 = 1) = c.will.isSome ∧
    ((f >>> 3) &&& 3).toNat = (c.will.map (·.qos)).getD 0 ∧
    decide ((f >>> 5) &&& 1 = 1) = (c.will.map (·.retain)).getD false ∧
    decide ((f >>> 6) &&& 1 = 1) = c.password.isSome ∧
    decide ((f >>> 7) &&& 1 = 1) = c.username.isSome := by
  subst hf
  cases hw : c.will with
  | none =>
    have := connect_flags_bits_aux c.password.isSome c.username.isSome c.cleanSession false false 0
    simpa [Connect.flags, hw] using this
  | some w =>
    have hq := hq w hw
    have := connect_flags_bits_aux c.password.isSome c.username.isSome c.cleanSession w.retain true
      ⟨w.qos, by omega⟩
    simpa [Connect.flags, hw] using this

theorem connect_body_assoc (c : Connect) : c.body = str protocolName ++ ([protocolLevel] ++
    ([UInt8.ofNat c.flags] ++ (u16 c.keepAlive ++ (str c.clientId ++ (optWill c.will ++
      (optStr c.username ++ optStr c.password)))))) := by
  simp only [Connect.body, List.append_assoc]
  rfl

theorem encode_optStr (b : Buf) (o : Option Bytes) (hb : b.data.length ≤ b.cap)
    (h : ∀ s, o = some s → s.length ≤ 65535) :
    (if o.isSome = true then encodeBuffer b (o.getD []) else Except.ok b) = b.put (optStr o) := by
  cases o with
  | none => simp [optStr, Buf.put_nil _ hb]
  | some u => simp [optStr, encodeBuffer_eq _ _ (h u rfl)]

theorem encode_optWill (b : Buf) (o : Option Will) (hb : b.data.length ≤ b.cap)
    (h : ∀ w, o = some w → w.topic.length ≤ 65535 ∧ w.message.length ≤ 65535) :
    (if o.isSome = true then do
        let b ← encodeBuffer b ((o.map (·.topic)).getD [])
        encodeBuffer b ((o.map (·.message)).getD [])
      else Except.ok b) = b.put (optWill o) := by
  cases o with
  | none => simp [optWill, Buf.put_nil _ hb]
  | some w =>
    obtain ⟨ha, hb⟩ := h w rfl
    simp [optWill, encodeBuffer_eq _ _ ha, encodeBuffer_eq _ _ hb, Buf.put_bind]

theorem decode_optStr (o : Option Bytes) (r : Bytes) (h : ∀ s, o = some s → s.length ≤ 65535) :
    (if o.isSome = true then decodeBuffer (optStr o ++ r) else Except.ok ([], optStr o ++ r)) =
      .ok (o.getD [], r) := by
  cases o with
  | none => rfl
  | some u => exact decodeBuffer_str u r (h u rfl)

/-- Rest of the input after the will topic was read. -/
def afterWillTopic (o : Option Will) (r : Bytes) : Bytes :=
  match o with
  | none => r
  | some w => str w.message ++ r

theorem decode_optWill_fst (o : Option Will) (r : Bytes)
    (h : ∀ w, o = some w → w.topic.length ≤ 65535 ∧ w.message.length ≤ 65535) :
    (if o.isSome = true then decodeBuffer (optWill o ++ r) else Except.ok ([], optWill o ++ r)) =
      .ok ((o.map (·.topic)).getD [], afterWillTopic o r) := by
  cases o with
  | none => rfl
  | some w =>
    simp only [optWill, List.append_assoc]
    exact decodeBuffer_str w.topic _ (h w rfl).1

theorem decode_optWill (o : Option Will) (r : Bytes)
    (h : ∀ w, o = some w → w.topic.length ≤ 65535 ∧ w.message.length ≤ 65535) :
    (if o.isSome = true then decodeBuffer (afterWillTopic o r) else Except.ok ([], afterWillTopic o r)) =
      .ok ((o.map (·.message)).getD [], r) := by
  cases o with
  | none => rfl
  | some w => exact decodeBuffer_str w.message _ (h w rfl).2

theorem connectDecode_of (c : Connect) (bytes : Bytes) (h : FixedHeader) (f : UInt8) {body : Bytes}
    (hdec : fixedHeaderDecode bytes = .ok (h, body))
    (hbody : body = str protocolName ++ ([protocolLevel] ++
    ([f] ++ (u16 c.keepAlive ++ (str c.clientId ++ (optWill c.will ++
      (optStr c.username ++ optStr c.password)))))))
    (hf : decide ((f >>> 1) &&& 1 = 1) = c.cleanSession ∧
      decide ((f >>> 2) &&& 1 = 1) = c.will.isSome ∧
      ((f >>> 3) &&& 3).toNat = (c.will.map (·.qos)).getD 0 ∧
      decide ((f >>> 5) &&& 1 = 1) = (c.will.map (·.retain)).getD false ∧
      decide ((f >>> 6) &&& 1 = 1) = c.password.isSome ∧
      decide ((f >>> 7) &&& 1 = 1) = c.username.isSome)
    (h1 : c.clientId.length ≤ 65535)
    (h2 : ∀ w, c.will = some w → w.topic.length ≤ 65535 ∧ w.message.length ≤ 65535)
    (h3 : ∀ u, c.username = some u → u.length ≤ 65535)
    (h4 : ∀ p, c.password = some p → p.length ≤ 65535)
    (hcred : (c.password.isSome && !c.username.isSome) = false) :
    connectDecode bytes = .ok (
      { header := h
        cleanSession := c.cleanSession, hasWill := c.will.isSome
        willRetain := (c.will.map (·.retain)).getD false
        hasPassword := c.password.isSome, hasUsername := c.username.isSome, keepAlive := c.keepAlive
        willQos := (c.will.map (·.qos)).getD 0, clientId := c.clientId
        willTopic := (c.will.map (·.topic)).getD [], willMessage := (c.will.map (·.message)).getD []
        username := c.username.getD [], password := c.password.getD [] }, []) := by
  obtain ⟨f1, f2, f3, f4, f5, f6⟩ := hf
  have hname : protocolName.length ≤ 65535 := by decide
  have d0 := fun r => decode_optWill_fst c.will r h2
  have d1 := fun r => decode_optWill c.will r h2
  have d2 := fun r => decode_optStr c.username r h3
  have d3 := decode_optStr c.password [] h4
  simp only [List.append_nil] at d3
  unfold connectDecode
  rw [hdec, ok_bind, hbody]
  simp only
  have e0 := fun r => congrArg remapShort (decodeBuffer_str protocolName r hname)
  simp only [e0]
  simp only [remapShort]
  simp only [ok_bind]
  rw [if_neg (by simp)]
  simp only [List.cons_append, List.nil_append, readU8, orShort, ok_bind]
  rw [if_neg (by simp)]
  simp only [u16_eq, readBe16_be16, ok_bind]
  simp only [decodeBuffer_str _ _ h1]
  simp only [ok_bind]
  simp only [f1, f2, f3, f4, f5, f6]
  simp only [d0, d1, d2, d3, ok_bind, hcred, Bool.false_eq_true, if_false]

/-- CONNECT: for every sequence of API calls with at most one will and fields within limits. -/
theorem C03_connect_roundtrip_partial (cid : Bytes) (clean : Bool) (ka : UInt16) (calls : List ConnectCall)
    (hw : calls.countP ConnectCall.isWill ≤ 1)
    (hlim : Connect.inLimits (requestedConnect cid clean ka calls)) :
    let p := buildConnect cid clean ka calls
    let c := requestedConnect cid clean ka calls
    ∃ bytes, IsFrame 1 0 c.body bytes ∧ (∀ b : Buf, connectEncode b p = b.put bytes) ∧
      connectDecode bytes = .ok (p, []) := by
  intro p c
  have hrep : Represents p c := buildConnect_represents cid clean ka calls hw
  change Connect.inLimits c at hlim
  clear_value p c
  unfold Represents at hrep
  subst hrep
  obtain ⟨h1, h2, h3, h4, h5⟩ := hlim
  have hflags : connectFlags
      { header := { packetType := CONNECT, remainingLength := c.body.length, flags := 0 }
        cleanSession := c.cleanSession, hasWill := c.will.isSome
        willRetain := (c.will.map (·.retain)).getD false
        hasPassword := c.password.isSome, hasUsername := c.username.isSome, keepAlive := c.keepAlive
        willQos := (c.will.map (·.qos)).getD 0, clientId := c.clientId
        willTopic := (c.will.map (·.topic)).getD [], willMessage := (c.will.map (·.message)).getD []
        username := c.username.getD [], password := c.password.getD [] } = UInt8.ofNat c.flags :=
    connect_flags_eq c (fun w hw => (h2 w hw).2.2)
  have hcred : (c.password.isSome && !c.username.isSome) = false := by
    cases hp : c.password <;> cases hu : c.username <;> simp_all
  refine ⟨frameBytes 1 0 c.body, isFrame_frameBytes _ _ _, ?_, ?_⟩
  · intro b
    rw [← headerEncode_then b 1 0 _ (by decide) (by decide) (Or.inr rfl) _ rfl]
    unfold connectEncode
    rw [hflags]
    simp only [hcred, Bool.false_eq_true, if_false]
    rw [fixedHeaderEncode_eq _ _ (Or.inr rfl), fixedHeaderEncode_eq _ _ (Or.inr rfl)]
    apply put_bind_congr
    intro b1 _ _ _
    rw [encodeBuffer_eq _ _ (by decide), put_remap, connect_body_assoc]
    rw [← Buf.put_bind]; apply put_bind_congr; intro b2 _ _ _
    rw [← Buf.put_bind]; apply put_bind_congr; intro b3 _ _ _
    rw [← Buf.put_bind]; apply put_bind_congr; intro b4 _ _ _
    rw [← Buf.put_bind, u16_eq]; apply put_bind_congr; intro b5 _ _ _
    rw [← Buf.put_bind, encodeBuffer_eq _ _ h1]; apply put_bind_congr; intro b6 _ _ hb6
    rw [← Buf.put_bind, encode_optWill b6 c.will hb6 (fun w hw => ⟨(h2 w hw).1, (h2 w hw).2.1⟩)]
    apply put_bind_congr; intro b7 _ _ hb7
    rw [← Buf.put_bind, encode_optStr b7 c.username hb7 h3]; apply put_bind_congr; intro b8 _ _ hb8
    exact encode_optStr b8 c.password hb8 h4
  · have hlen : c.body.length < 2 ^ 28 := by
      rw [connect_body_length]
      have a1 : (match c.will with | none => 0 | some w => 2 + w.topic.length + (2 + w.message.length)) ≤ 131074 := by
        cases hcw : c.will with
        | none => simp
        | some w => obtain ⟨ha, hb, _⟩ := h2 w hcw; simp only; omega
      have a2 : (match c.username with | none => 0 | some u => 2 + u.length) ≤ 65537 := by
        cases hcu : c.username with
        | none => simp
        | some u => have := h3 u hcu; simp only; omega
      have a3 : (match c.password with | none => 0 | some u => 2 + u.length) ≤ 65537 := by
        cases hcu : c.password with
        | none => simp
        | some u => have := h4 u hcu; simp only; omega
      omega
    have hdec := headerDecode_frame 1 0 c.body (by decide) (by decide) (Or.inr rfl) hlen
    rw [connectDecode_of c (frameBytes 1 0 c.body) _ (UInt8.ofNat c.flags) hdec (connect_body_assoc c)
      (connect_flags_bits c (fun w hw => (h2 w hw).2.2) _ rfl) h1
      (fun w hw => ⟨(h2 w hw).1, (h2 w hw).2.1⟩) h3 h4 hcred]
    rfl

/-- A CONNECT with user name, password and will meets the hypotheses of the theorem. -/
example : [ConnectCall.credentials [117] [112], .will [119] 1 true [109]].countP ConnectCall.isWill ≤ 1 ∧
    Connect.inLimits (requestedConnect [99] true 30 [.credentials [117] [112], .will [119] 1 true [109]]) := by
  constructor
  · decide
  · simp [Connect.inLimits, requestedConnect]

/-- C03 is violated for CONNECT when the will is set twice: `aws_mqtt_packet_connect_add_will` adds
the size of the new will without removing the size of the old one (packets.c:201), so the packet
announces more bytes than it has. -/
theorem C03_connect_two_wills_violated :
    ∃ calls : List ConnectCall, ∃ b b' : Buf,
      Connect.inLimits (requestedConnect [99] true 30 calls) ∧
      connectEncode b (buildConnect [99] true 30 calls) = .ok b' ∧
      fixedHeaderDecode (b'.data.drop b.data.length) = .error .shortBuffer := by
  refine ⟨[.will [119] 0 false [109], .will [119] 0 false [109]], ⟨100, []⟩,
    ⟨100, [16, 25, 0, 4, 77, 81, 84, 84, 4, 6, 0, 30, 0, 1, 99, 0, 1, 119, 0, 1, 109]⟩, ?_, ?_, ?_⟩
  · simp [Connect.inLimits, requestedConnect]
  · decide +kernel
  · decide +kernel

end Mqtt.Props
