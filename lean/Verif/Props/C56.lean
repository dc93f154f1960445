import Verif.Validate5
import Verif.Props.C22
import Verif.Props.C39

/-!
C56: options accepted by the constructors satisfy the static rules of MQTT 5.

The rules are stated with `Spec.Text`, `Spec.TopicName`, `Spec.TopicFilter` and `Shared`, which are
independent of the code. Each theorem is an equivalence: the rules of MQTT 5 together with the limits the
library adds are exactly what a constructor accepts.
-/
namespace Mqtt.Props
open Mqtt Mqtt.Spec Mqtt.V5

/-- A UTF-8 encoded string field (MQTT 5, 1.5.4). -/
def ShortText (s : Bytes) : Prop := s.length ≤ 65535 ∧ Text s

def Opt {α : Type} (o : Option α) (P : α → Prop) : Prop := ∀ x, o = some x → P x

/-- User properties (1.5.7): pairs of strings. -/
def UserRules (ps : List UserProperty) : Prop := ∀ p ∈ ps, ShortText p.name ∧ ShortText p.value

/-- PUBLISH from a client (3.3), before a packet identifier is assigned. -/
structure PublishRules (v : PublishView) : Prop where
  topic : TopicName v.topic
  qos : v.qos ≤ 2                                                        -- 3.3.1.2
  dup : v.qos = 0 → v.duplicate = false                                  -- 3.3.1.1
  alias : v.topicAlias ≠ some 0                                          -- 3.3.2.3.4
  format : Opt v.payloadFormat (· ≤ 1)                                   -- 3.3.2.3.2
  payload : v.payloadFormat = some 1 → Text v.payload                    -- 3.3.2.3.2
  response : Opt v.responseTopic TopicName                               -- 3.3.2.3.5
  correlation : Opt v.correlationData (fun s => s.length ≤ 65535)        -- 1.5.6
  subscriptionIds : v.subscriptionIdentifiers = []                       -- 3.3.4
  contentType : Opt v.contentType ShortText                              -- 3.3.2.3.9
  user : UserRules v.userProperties

/-- Limits of this library on a PUBLISH that MQTT 5 does not have. -/
structure PublishLimits (v : PublishView) : Prop where
  response : Opt v.responseTopic (fun s => s.length ≠ 65535)
  correlation : Opt v.correlationData (fun s => s.length ≠ 65535)
  contentType : Opt v.contentType (fun s => s.length ≠ 65535)
  user : v.userProperties.length ≤ 1024

/-- One subscription (3.8.3); the library takes QoS up to 1 only, and decides with `isShared` whether No
Local is refused (3.8.3-4). -/
structure SubscriptionRules (s : SubscriptionView) : Prop where
  filter : TopicFilter s.topicFilter
  qos : s.qos ≤ 2
  retain : s.retainHandling ≤ 2
  noLocal : s.noLocal = true → ¬ Shared s.topicFilter

structure SubscribeRules (v : SubscribeView) : Prop where
  some : v.subscriptions ≠ []                                             -- 3.8.3-2
  each : ∀ s ∈ v.subscriptions, SubscriptionRules s
  identifier : Opt v.subscriptionIdentifier (fun i => 1 ≤ i ∧ i ≤ 268435455)   -- 3.8.2.1.2
  user : UserRules v.userProperties

structure UnsubscribeRules (v : UnsubscribeView) : Prop where
  some : v.topicFilters ≠ []                                              -- 3.10.3-2
  each : ∀ f ∈ v.topicFilters, TopicFilter f
  user : UserRules v.userProperties

/-- Reason codes a client may send in DISCONNECT (3.14.2.1, table 3-10). -/
def ClientDisconnect (c : Nat) : Prop :=
  c = 0 ∨ c = 4 ∨ (128 ≤ c ∧ c ≤ 131) ∨ c = 144 ∨ (147 ≤ c ∧ c ≤ 153)

/-- Reason codes only a server may send. -/
def ServerDisconnect (c : Nat) : Prop :=
  c = 135 ∨ c = 137 ∨ c = 139 ∨ (141 ≤ c ∧ c ≤ 143) ∨ (154 ≤ c ∧ c ≤ 162)

structure DisconnectRules (v : DisconnectView) : Prop where
  reason : ClientDisconnect v.reasonCode
  reasonString : Opt v.reasonString ShortText
  serverReference : v.serverReference = none                              -- 3.14.2.2.5
  user : UserRules v.userProperties

/-- CONNECT (3.1). -/
structure ConnectRules (v : ConnectView) : Prop where
  clientId : ShortText v.clientId
  username : Opt v.username ShortText
  password : Opt v.password (fun s => s.length ≤ 65535)
  receiveMaximum : v.receiveMaximum ≠ some 0                              -- 3.1.2.11.3
  maximumPacketSize : v.maximumPacketSize ≠ some 0                        -- 3.1.2.11.4
  will : Opt v.will PublishRules
  willPayload : Opt v.will (fun w => w.payload.length ≤ 65535)
  requestProblem : Opt v.requestProblem (· ≤ 1)
  requestResponse : Opt v.requestResponse (· ≤ 1)
  user : UserRules v.userProperties
  noAuth : v.authMethod = none ∧ v.authData = none

/-! ### Proofs -/

theorem any_false {α : Type} (o : Option α) (f : α → Bool) : o.any f = false ↔ Opt o (fun x => f x = false) := by
  cases o <;> simp [Opt]

theorem validateUserProperty_iff (p : UserProperty) :
    validateUserProperty p = true ↔ ShortText p.name ∧ ShortText p.value := by
  unfold validateUserProperty ShortText
  rw [← validUtf8Text_iff, ← validUtf8Text_iff]
  cases validUtf8Text p.name <;> cases validUtf8Text p.value <;> simp <;> split <;> simp <;> omega

theorem validateUserProperties_iff (ps : List UserProperty) :
    validateUserProperties ps = true ↔ UserRules ps ∧ ps.length ≤ 1024 := by
  unfold validateUserProperties UserRules
  split
  · constructor
    · simp
    · rintro ⟨_, h⟩; omega
  · rw [List.all_eq_true]
    simp only [validateUserProperty_iff]
    constructor
    · intro h; exact ⟨h, by omega⟩
    · exact fun h => h.1

theorem ite_false_eq_true (c : Prop) [Decidable c] (b : Bool) : (if c then false else b) = true ↔ ¬ c ∧ b = true := by
  split <;> simp [*]

theorem topicName_text {t : Bytes} (h : TopicName t) : Text t := h.2.2.1
theorem topicFilter_text {t : Bytes} (h : TopicFilter t) : Text t := h.2.2.1

theorem validatePublish_iff (v : PublishView) :
    validatePublish v = true ↔ PublishRules v ∧ PublishLimits v ∧ (v.qos = 0 → v.packetId = 0) := by
  unfold validatePublish
  simp only [ite_false_eq_true, Bool.not_eq_false, Bool.not_eq_true, any_false,
    decide_eq_false_iff_not, validUtf8Text_iff, C08_topic, validateUserProperties_iff, Bool.not_eq_eq_eq_not,
    Bool.not_true, Bool.not_false]
  constructor
  · rintro ⟨h1, h2, h3, h4, h5, h6, h7, h8, h9, h10, h11, h12, h13, h14, h15, h16, h17, h18⟩
    refine ⟨⟨h6, by omega, ?_, h7, ?_, ?_, h12, ?_, ?_, ?_, h17⟩, ⟨?_, ?_, ?_, h18⟩, ?_⟩
    · intro hq; cases hd : v.duplicate
      · rfl
      · exact absurd ⟨hq, hd⟩ h2
    · intro x hx; have := h8 x hx; omega
    · intro hx
      cases hu : validUtf8Text v.payload
      · exact absurd ⟨hx, hu⟩ h9
      · exact (validUtf8Text_iff _).1 hu
    · intro x hx; have := h13 x hx; omega
    · exact List.length_eq_zero_iff.1 (by omega)
    · intro x hx; exact ⟨by have := h15 x hx; omega, h16 x hx⟩
    · intro x hx; have := h10 x hx; omega
    · intro x hx; have := h13 x hx; omega
    · intro x hx; have := h15 x hx; omega
    · intro hq
      apply Classical.byContradiction
      intro hp; exact h3 ⟨hq, hp⟩
  · rintro ⟨r, l, hp⟩
    refine ⟨by have := r.qos; omega, ?_, ?_, by have := r.topic.1; omega, topicName_text r.topic, r.topic, r.alias, ?_,
      ?_, ?_, ?_, r.response, ?_, by simp [r.subscriptionIds], ?_, ?_, r.user, l.user⟩
    · rintro ⟨hq, hd⟩; rw [r.dup hq] at hd; simp at hd
    · rintro ⟨hq, hd⟩; exact hd (hp hq)
    · intro x hx; have := r.format x hx; omega
    · rintro ⟨hx, hu⟩
      rw [(validUtf8Text_iff _).2 (r.payload hx)] at hu; simp at hu
    · intro x hx; have := (r.response x hx).2.1; have := l.response x hx; omega
    · intro x hx; exact topicName_text (r.response x hx)
    · intro x hx; have := r.correlation x hx; have := l.correlation x hx; omega
    · intro x hx; have := (r.contentType x hx).1; have := l.contentType x hx; omega
    · intro x hx; exact (r.contentType x hx).2

/-- The constructor of a publish accepts exactly the legal ones within the limits, and keeps them as given. -/
theorem C56_publish (v w : PublishView) :
    newPublish v = some w ↔ w = v ∧ PublishRules v ∧ PublishLimits v ∧ v.packetId = 0 := by
  unfold newPublish
  have hv := validatePublish_iff v
  cases h : validatePublish v
  · rw [h] at hv
    simp only [Bool.not_false, if_true]
    constructor
    · simp
    · rintro ⟨_, a, b, c⟩; exact absurd (hv.2 ⟨a, b, fun _ => c⟩) (by simp)
  · rw [h] at hv
    obtain ⟨a, b, c⟩ := hv.1 rfl
    by_cases hp : v.packetId = 0
    · simp [hp, a, b, eq_comm]
    · simp [hp]

theorem validateSubscription_iff (s : SubscriptionView) :
    validateSubscription s = true ↔
      TopicFilter s.topicFilter ∧ s.qos ≤ 1 ∧ s.retainHandling ≤ 2 ∧ (s.noLocal = true → isShared s.topicFilter = false) := by
  unfold validateSubscription
  simp only [ite_false_eq_true, Bool.not_eq_true', Bool.not_eq_false, Bool.not_eq_true, validUtf8Text_iff, C08_filter]
  constructor
  · rintro ⟨_, h2, _, h4, h5, h6, _⟩
    refine ⟨h2, by omega, by omega, ?_⟩
    intro hn; rw [hn] at h6; simpa using h6
  · rintro ⟨h1, h2, h3, h4⟩
    refine ⟨topicFilter_text h1, h1, by have := h1.2.1; omega, by omega, by omega, ?_, trivial⟩
    cases hn : s.noLocal
    · rfl
    · simp [h4 hn]

theorem validateSubscribe_iff (v : SubscribeView) :
    validateSubscribe v = true ↔
      v.subscriptions ≠ [] ∧ v.subscriptions.length ≤ 1024 ∧
      (∀ s ∈ v.subscriptions, TopicFilter s.topicFilter ∧ s.qos ≤ 1 ∧ s.retainHandling ≤ 2 ∧
        (s.noLocal = true → isShared s.topicFilter = false)) ∧
      Opt v.subscriptionIdentifier (· ≤ 268435455) ∧ UserRules v.userProperties ∧ v.userProperties.length ≤ 1024 := by
  unfold validateSubscribe
  simp only [ite_false_eq_true, Bool.not_eq_true', Bool.not_eq_false, Bool.not_eq_true, List.all_eq_true, any_false,
    decide_eq_false_iff_not, validateSubscription_iff, validateUserProperties_iff, List.length_eq_zero_iff, Nat.not_lt,
    gt_iff_lt, ne_eq]

/-- The constructor of a subscribe accepts exactly: one to 1024 legal filters with QoS 0 or 1, legal retain
handling, No Local only where the filter is not taken for shared, an identifier of at most 268435455 and
legal user properties. -/
theorem C56_subscribe_exact (v w : SubscribeView) :
    newSubscribe v = some w ↔ w = v ∧ v.packetId = 0 ∧
      v.subscriptions ≠ [] ∧ v.subscriptions.length ≤ 1024 ∧
      (∀ s ∈ v.subscriptions, TopicFilter s.topicFilter ∧ s.qos ≤ 1 ∧ s.retainHandling ≤ 2 ∧
        (s.noLocal = true → isShared s.topicFilter = false)) ∧
      Opt v.subscriptionIdentifier (· ≤ 268435455) ∧ UserRules v.userProperties ∧ v.userProperties.length ≤ 1024 := by
  rw [← validateSubscribe_iff]
  unfold newSubscribe
  cases h : validateSubscribe v
  · simp
  · by_cases hp : v.packetId = 0 <;> simp [hp, eq_comm]

/-- An accepted subscribe follows the rules of MQTT 5, except that its identifier may be 0. -/
theorem C56_subscribe_partial (v w : SubscribeView) (h : newSubscribe v = some w) :
    w = v ∧ v.packetId = 0 ∧ (v.subscriptionIdentifier ≠ some 0 → SubscribeRules v) := by
  obtain ⟨h1, h2, h3, _, h5, h6, h7, _⟩ := (C56_subscribe_exact v w).1 h
  refine ⟨h1, h2, fun hid => ⟨h3, ?_, ?_, h7⟩⟩
  · intro s hs
    obtain ⟨a, b, c, d⟩ := h5 s hs
    refine ⟨a, by omega, c, ?_⟩
    intro hn hsh
    have := (C39_shared_partial s.topicFilter).1 hsh
    rw [d hn] at this; simp at this
  · intro i hi
    have := h6 i hi
    refine ⟨?_, this⟩
    cases i with
    | zero => exact absurd hi hid
    | succ n => omega

/-- MQTT 5 3.8.2.1.2 makes a subscription identifier of 0 a protocol error; the library sends it. -/
theorem C56_violated_identifier : ∃ v w, newSubscribe v = some w ∧ ¬ SubscribeRules v := by
  refine ⟨{ subscriptions := [{ topicFilter := [97] }], subscriptionIdentifier := some 0 }, _,
    (C56_subscribe_exact _ _).2 ⟨rfl, rfl, by simp, by simp, ?_, ?_, ?_, by simp⟩, ?_⟩
  · intro s hs
    simp only [List.mem_singleton] at hs
    subst hs
    exact ⟨(C08_filter _).1 (by decide +kernel), by simp, by simp, by simp⟩
  · intro i hi; cases hi; simp
  · intro p hp; simp at hp
  · intro h
    have := h.identifier 0 rfl
    omega

theorem C56_unsubscribe (v w : UnsubscribeView) :
    newUnsubscribe v = some w ↔ w = v ∧ UnsubscribeRules v ∧ v.packetId = 0 ∧
      v.topicFilters.length ≤ 1024 ∧ v.userProperties.length ≤ 1024 := by
  have hv : validateUnsubscribe v = true ↔ UnsubscribeRules v ∧
      v.topicFilters.length ≤ 1024 ∧ v.userProperties.length ≤ 1024 := by
    unfold validateUnsubscribe
    simp only [ite_false_eq_true, Bool.not_eq_true', Bool.not_eq_false, List.all_eq_true, Bool.and_eq_true,
      validUtf8Text_iff, C08_filter, validateUserProperties_iff, List.length_eq_zero_iff, Nat.not_lt, gt_iff_lt]
    constructor
    · rintro ⟨h1, h2, h3, h4, h5⟩; exact ⟨⟨h1, fun f hf => (h3 f hf).2, h4⟩, h2, h5⟩
    · rintro ⟨r, h2, h5⟩; exact ⟨r.some, h2, fun f hf => ⟨topicFilter_text (r.each f hf), r.each f hf⟩, r.user, h5⟩
  unfold newUnsubscribe
  cases h : validateUnsubscribe v
  · rw [h] at hv
    constructor
    · simp
    · rintro ⟨_, a, _, b, c⟩; exact absurd (hv.2 ⟨a, b, c⟩) (by simp)
  · obtain ⟨a, b, c⟩ := hv.1 h
    by_cases hp : v.packetId = 0 <;> simp [hp, a, b, c, eq_comm]

theorem reason_codes (c : Nat) : disconnectReasonCodes.contains c = true ↔ ClientDisconnect c ∨ ServerDisconnect c := by
  unfold ClientDisconnect ServerDisconnect disconnectReasonCodes
  simp only [List.contains_eq_mem, List.mem_cons, List.not_mem_nil, or_false, decide_eq_true_iff]
  omega

theorem C56_disconnect_exact (v w : DisconnectView) :
    newDisconnect v = some w ↔ w = v ∧ (ClientDisconnect v.reasonCode ∨ ServerDisconnect v.reasonCode) ∧
      Opt v.reasonString ShortText ∧ v.serverReference = none ∧ UserRules v.userProperties ∧
      v.userProperties.length ≤ 1024 := by
  have hv : validateDisconnect v = true ↔ (ClientDisconnect v.reasonCode ∨ ServerDisconnect v.reasonCode) ∧
      Opt v.reasonString ShortText ∧ v.serverReference = none ∧ UserRules v.userProperties ∧
      v.userProperties.length ≤ 1024 := by
    unfold validateDisconnect
    simp only [ite_false_eq_true, Bool.not_eq_true, any_false,
      decide_eq_false_iff_not, Bool.not_eq_eq_eq_not, Bool.not_true, Bool.not_false, Bool.not_eq_false, reason_codes, validUtf8Text_iff,
      validateUserProperties_iff, Option.isSome_eq_false_iff, Option.isNone_iff_eq_none]
    constructor
    · rintro ⟨h1, h2, h3, h4, h5, h6⟩
      exact ⟨h1, fun x hx => ⟨by have := h2 x hx; omega, h3 x hx⟩, h4, h5, h6⟩
    · rintro ⟨h1, h2, h4, h5, h6⟩
      exact ⟨h1, fun x hx => by have := (h2 x hx).1; omega, fun x hx => (h2 x hx).2, h4, h5, h6⟩
  unfold newDisconnect
  cases h : validateDisconnect v
  · rw [h] at hv
    constructor
    · simp
    · rintro ⟨_, a⟩; exact absurd (hv.2 a) (by simp)
  · have := hv.1 h
    simp [this, eq_comm]

/-- An accepted disconnect follows the rules of MQTT 5, or carries a reason code reserved to servers. -/
theorem C56_disconnect_partial (v w : DisconnectView) (h : newDisconnect v = some w) :
    w = v ∧ (DisconnectRules v ∨ ServerDisconnect v.reasonCode) := by
  obtain ⟨h1, h2, h3, h4, h5, _⟩ := (C56_disconnect_exact v w).1 h
  refine ⟨h1, ?_⟩
  rcases h2 with h2 | h2
  · exact .inl ⟨h2, h3, h4, h5⟩
  · exact .inr h2

/-- "Keep Alive timeout" (141) is for servers only; the library lets a client send it. -/
theorem C56_violated_reason : ∃ v w, newDisconnect v = some w ∧ ¬ DisconnectRules v := by
  refine ⟨{ reasonCode := 141 }, _, (C56_disconnect_exact _ _).2 ⟨rfl, .inr (by unfold ServerDisconnect; simp), ?_, rfl,
    ?_, by simp⟩, ?_⟩
  · intro x hx; simp at hx
  · intro p hp; simp at hp
  · intro h
    have := h.reason
    unfold ClientDisconnect at this
    simp at this

theorem validateConnect_iff (v : ConnectView) :
    validateConnect v = true ↔ ConnectRules v ∧ Opt v.will PublishLimits ∧
      Opt v.will (fun w => w.qos = 0 → w.packetId = 0) ∧ v.userProperties.length ≤ 1024 := by
  unfold validateConnect
  simp only [ite_false_eq_true, Bool.not_eq_true, any_false, Bool.not_eq_false,
    decide_eq_false_iff_not, Bool.not_eq_eq_eq_not, Bool.not_true, Bool.not_false, validUtf8Text_iff, validatePublish_iff,
    validateUserProperties_iff, and_true, not_or, Option.isSome_eq_false_iff, Option.isNone_iff_eq_none]
  constructor
  · rintro ⟨h1, h2, h3, h4, h5, h6, h7, h8, h9, h10, h11, ⟨h12, h13⟩, h14⟩
    refine ⟨⟨⟨by omega, h2⟩, fun x hx => ⟨by have := h3 x hx; omega, h4 x hx⟩, fun x hx => by have := h5 x hx; omega, h6,
      h7, fun x hx => (h8 x hx).1, fun x hx => by have := h9 x hx; omega, fun x hx => by have := h10 x hx; omega,
      fun x hx => by have := h11 x hx; omega, h12, h14⟩, fun x hx => (h8 x hx).2.1, fun x hx => (h8 x hx).2.2, h13⟩
  · rintro ⟨r, hl, hp, hu⟩
    exact ⟨by have := r.clientId.1; omega, r.clientId.2, fun x hx => by have := (r.username x hx).1; omega,
      fun x hx => (r.username x hx).2, fun x hx => by have := r.password x hx; omega, r.receiveMaximum,
      r.maximumPacketSize, fun x hx => ⟨r.will x hx, hl x hx, hp x hx⟩, fun x hx => by have := r.willPayload x hx; omega,
      fun x hx => by have := r.requestProblem x hx; omega, fun x hx => by have := r.requestResponse x hx; omega,
      ⟨r.user, hu⟩, r.noAuth⟩

/-- What the constructor of CONNECT accepts (without SDK metrics), and what it keeps: everything, but an
empty user name becomes no user name. -/
theorem C56_connect (v w : ConnectView) :
    newConnect v = some w ↔ ConnectRules v ∧ Opt v.will PublishLimits ∧
      Opt v.will (fun w => w.qos = 0 → w.packetId = 0) ∧ v.userProperties.length ≤ 1024 ∧
      w = (if v.username = some [] then { v with username := none } else v) := by
  have hv := validateConnect_iff v
  unfold newConnect
  cases h : validateConnect v
  · rw [h] at hv
    constructor
    · simp
    · rintro ⟨a, b, c, d, _⟩; exact absurd (hv.2 ⟨a, b, c, d⟩) (by simp)
  · obtain ⟨a, b, c, d⟩ := hv.1 h
    have e : (if v.username.any (fun s => s.length > 0) then v.username else none)
        = (if v.username = some [] then none else v.username) := by
      cases hu : v.username with
      | none => simp
      | some s => cases s <;> simp
    rw [e]
    simp only [a, b, c, d, true_and, Bool.not_true, Bool.false_eq_true, if_false, Option.some.injEq]
    by_cases hu : v.username = some []
    · simp [hu, eq_comm]
    · simp only [hu, if_false]
      exact eq_comm

/-! ### Nothing malformed reaches the encoder: accepted options lie in the ranges of C21 and C22 -/

/-- Ranges of the C types of the fields of a PUBLISH. -/
structure PublishTypes (v : PublishView) : Prop where
  messageExpiry : OptLt 4294967296 v.messageExpiry
  topicAlias : OptLt 65536 v.topicAlias

structure ConnectTypes (v : ConnectView) : Prop where
  keepAlive : v.keepAlive < 65536
  sessionExpiry : OptLt 4294967296 v.sessionExpiry
  receiveMaximum : OptLt 65536 v.receiveMaximum
  topicAliasMaximum : OptLt 65536 v.topicAliasMaximum
  maximumPacketSize : OptLt 4294967296 v.maximumPacketSize
  willDelay : OptLt 4294967296 v.willDelay
  will : Opt v.will PublishTypes

theorem userFits (ps : List UserProperty) (h : UserRules ps) (hl : ps.length ≤ 1024) : UserFits ps :=
  ⟨hl, fun p hp => ⟨(h p hp).1.1, (h p hp).2.1⟩⟩

theorem C56_publish_fits (v w : PublishView) (h : newPublish v = some w) (ht : PublishTypes v) (id : Nat)
    (hid : id < 65536) (hq : id ≠ 0 ↔ v.qos ≠ 0) : Fits (.publish { w with packetId := id }) := by
  obtain ⟨rfl, r, l, _⟩ := (C56_publish v w).1 h
  exact
    { qos := r.qos, packetId := hid, packetIdQos := hq, topic := r.topic.2.1,
      payloadFormat := fun x hx => by have := r.format x hx; omega,
      messageExpiry := ht.messageExpiry, topicAlias := ht.topicAlias,
      responseTopic := fun x hx => (r.response x hx).2.1, correlationData := r.correlation,
      contentType := fun x hx => (r.contentType x hx).1, userProperties := userFits _ r.user l.user }

theorem C56_subscribe_fits (v w : SubscribeView) (h : newSubscribe v = some w) (id : Nat) (hid : id < 65536) :
    Fits (.subscribe { w with packetId := id }) := by
  obtain ⟨rfl, _, _, _, h5, _, h7, h8⟩ := (C56_subscribe_exact v w).1 h
  exact
    { packetId := hid,
      filters := fun s hs => ⟨(h5 s hs).1.2.1, by have := (h5 s hs).2.1; omega, (h5 s hs).2.2.1⟩,
      userProperties := userFits _ h7 h8 }

theorem C56_unsubscribe_fits (v w : UnsubscribeView) (h : newUnsubscribe v = some w) (id : Nat) (hid : id < 65536) :
    Fits (.unsubscribe { w with packetId := id }) := by
  obtain ⟨rfl, r, _, _, h8⟩ := (C56_unsubscribe v w).1 h
  exact { packetId := hid, filters := fun f hf => (r.each f hf).2.1, userProperties := userFits _ r.user h8 }

theorem C56_disconnect_fits (v w : DisconnectView) (h : newDisconnect v = some w)
    (ht : OptLt 4294967296 v.sessionExpiry) : Fits (.disconnect w) := by
  obtain ⟨rfl, h2, h3, h4, h5, h6⟩ := (C56_disconnect_exact v w).1 h
  exact
    { reasonCode := by unfold ClientDisconnect ServerDisconnect at h2; omega, sessionExpiry := ht,
      reasonString := fun x hx => (h3 x hx).1, serverReference := by rw [h4]; intro x hx; simp at hx,
      userProperties := userFits _ h5 h6 }

theorem C56_connect_fits (v w : ConnectView) (h : newConnect v = some w) (ht : ConnectTypes v) :
    Fits (.connect w) := by
  obtain ⟨r, l, _, hu, hw⟩ := (C56_connect v w).1 h
  have hbase : ConnectFits v :=
    { keepAlive := ht.keepAlive, clientId := r.clientId.1, username := fun x hx => (r.username x hx).1,
      password := r.password, sessionExpiry := ht.sessionExpiry,
      requestResponse := fun x hx => by have := r.requestResponse x hx; omega,
      requestProblem := fun x hx => by have := r.requestProblem x hx; omega,
      receiveMaximum := ht.receiveMaximum, topicAliasMaximum := ht.topicAliasMaximum,
      maximumPacketSize := ht.maximumPacketSize, willDelay := ht.willDelay,
      will := fun x hx =>
        { qos := (r.will x hx).qos, topic := (r.will x hx).topic.2.1, payload := r.willPayload x hx,
          payloadFormat := fun y hy => by have := (r.will x hx).format y hy; omega,
          messageExpiry := (ht.will x hx).messageExpiry,
          responseTopic := fun y hy => ((r.will x hx).response y hy).2.1,
          correlationData := (r.will x hx).correlation,
          contentType := fun y hy => ((r.will x hx).contentType y hy).1,
          userProperties := userFits _ (r.will x hx).user (l x hx).user },
      userProperties := userFits _ r.user hu,
      authMethod := by rw [r.noAuth.1]; intro x hx; simp at hx,
      authData := by rw [r.noAuth.2]; intro x hx; simp at hx }
  subst hw
  show ConnectFits _
  split
  · exact { hbase with username := fun x hx => by simp at hx }
  · exact hbase

/-- The aliases a resolver holds are 16 bit numbers. -/
def AliasesFit : TopicAlias.Outbound → Prop
  | .lru (some c) _ => ∀ e ∈ c, e.2 < 65536
  | _ => True

theorem resolve_fits {r r' : TopicAlias.Outbound} (hr : AliasesFit r) {t t' : Bytes} {a : Option Nat} {a' : Nat}
    (ha : OptLt 65536 a) (h : r.resolve t a = some (r', a', t')) :
    AliasesFit r' ∧ a' < 65536 ∧ (t' = t ∨ t' = []) := by
  cases r with
  | disabled =>
    simp only [TopicAlias.Outbound.resolve] at h
    split at h
    · simp at h
    · cases h; exact ⟨trivial, by omega, .inl rfl⟩
  | manual al =>
    simp only [TopicAlias.Outbound.resolve, TopicAlias.resolveManual] at h
    cases a with
    | none => cases h; exact ⟨trivial, by omega, .inl rfl⟩
    | some x =>
      have := ha x rfl
      simp only at h
      split at h
      · simp at h
      · split at h
        · simp at h
        · split at h
          · cases h; exact ⟨trivial, this, .inr rfl⟩
          · cases h; exact ⟨trivial, this, .inl rfl⟩
  | lru c max =>
    simp only [TopicAlias.Outbound.resolve] at h
    cases c with
    | none => cases h; exact ⟨trivial, by omega, .inl rfl⟩
    | some c =>
      have hr : ∀ e ∈ c, e.2 < 65536 := hr
      simp only at h
      split at h
      · cases h; exact ⟨hr, by omega, .inl rfl⟩
      · have hput : ∀ (c : List (Bytes × Nat)) (x : Nat), (∀ e ∈ c, e.2 < 65536) → x < 65536 →
            ∀ e ∈ TopicAlias.cachePut max c t x, e.2 < 65536 := by
          intro c x hc hx e he
          unfold TopicAlias.cachePut TopicAlias.cacheRemove at he
          have : e ∈ c.filter (fun y => y.1 ≠ t) ++ [(t, x)] := by
            simp only at he
            split at he
            · exact List.mem_of_mem_drop he
            · exact he
          rcases List.mem_append.1 this with h | h
          · exact hc e ((List.mem_filter.1 h).1)
          · rw [List.mem_singleton.1 h]; exact hx
        unfold TopicAlias.resolveLru TopicAlias.cacheFind at h
        cases hfind : c.find? (fun e => e.1 = t) with
        | some e =>
          have hmem := List.mem_of_find?_eq_some hfind
          rw [hfind] at h
          simp only at h
          cases h
          refine ⟨?_, hr e hmem, .inr rfl⟩
          intro x hx
          rcases List.mem_append.1 hx with h | h
          · exact hr x ((List.mem_filter.1 h).1)
          · rw [List.mem_singleton.1 h]; exact hr e hmem
        | none =>
          rw [hfind] at h
          simp only at h
          split at h
          · cases c with
            | nil => simp [TopicAlias.cacheUseLru] at h
            | cons e c =>
              simp only [TopicAlias.cacheUseLru] at h
              cases h
              refine ⟨?_, hr e (by simp), .inl rfl⟩
              refine hput _ _ ?_ (hr e (by simp))
              intro x hx
              have := (List.mem_filter.1 hx).1
              simp only [List.mem_append, List.mem_singleton] at this
              rcases this with h | h
              · exact hr x (by simp [h])
              · rw [h]; exact hr e (by simp)
          · cases h
            exact ⟨hput _ _ hr (by omega), by omega, .inl rfl⟩

/-- C22 for what a user submits: a publish that its constructor accepted, given the packet identifier the
client assigns (none for QoS 0), encoded through the alias resolver and drained, is on the wire one MQTT 5
PUBLISH with the payload, flags and properties of the options, and with the topic of the options or, under a
non-zero alias, an empty one. -/
theorem C56_publish_on_wire (v w : PublishView) (h : newPublish v = some w) (ht : PublishTypes v) (id : Nat)
    (hid : id < 65536) (hq : id ≠ 0 ↔ v.qos ≠ 0) (e e' e'' : Encoder) (hidle : e.steps = [])
    (hr : ∀ r, e.resolver = some r → AliasesFit r) (happ : e.append (.publish { w with packetId := id }) = .ok e')
    (hsize : ∀ q, Resolved e (.publish { w with packetId := id }) q → encodedSize q ≠ none) (cap : Nat) (out : Bytes)
    (hd : e'.encodeToBuffer ⟨cap, []⟩ = (.finished, ⟨cap, out⟩, e'')) :
    ∃ topic alias, (topic = v.topic ∨ (topic = [] ∧ ∃ a, alias = some a ∧ 1 ≤ a)) ∧
      Spec5.packet out = some (meaning (.publish { v with packetId := id, topic := topic, topicAlias := alias })) := by
  have hfit := C56_publish_fits v w h ht id hid hq
  obtain ⟨rfl, r, l, _⟩ := (C56_publish v w).1 h
  have hres : ∀ q, Resolved e (.publish { w with packetId := id }) q → Fits q ∧
      ∃ topic alias, (topic = w.topic ∨ (topic = [] ∧ ∃ a, alias = some a ∧ 1 ≤ a)) ∧
        q = .publish { w with packetId := id, topic := topic, topicAlias := alias } := by
    intro q hq
    unfold Resolved at hq
    cases hrs : e.resolver with
    | none => rw [hrs] at hq; simp only at hq; subst hq; exact ⟨hfit, w.topic, w.topicAlias, .inl rfl, rfl⟩
    | some rs =>
      rw [hrs] at hq
      simp only at hq
      obtain ⟨r', topic, alias, hb, rfl⟩ := hq
      unfold TopicAlias.beginPublish at hb
      cases hx : rs.resolve w.topic w.topicAlias with
      | none => rw [hx] at hb; simp at hb
      | some y =>
        obtain ⟨r1, a1, t1⟩ := y
        rw [hx] at hb
        obtain ⟨_, ha, htopic⟩ := resolve_fits (hr rs hrs) ht.topicAlias hx
        have hshort : ∀ t, t = w.topic ∨ t = [] → Short t := by
          rintro t (rfl | rfl)
          · exact r.topic.2.1
          · simp [Short]
        have hf' : PublishFits { w with packetId := id } := hfit
        simp only at hb
        split at hb
        · cases hb
          refine ⟨{ hf' with topic := hshort _ htopic, topicAlias := ?_ }, topic, some a1, ?_, rfl⟩
          · intro x hx; cases hx; exact ha
          · rcases htopic with h | h
            · exact .inl h
            · exact .inr ⟨h, a1, rfl, by omega⟩
        · split at hb
          · cases hb
            refine ⟨{ hf' with topic := hshort _ htopic, topicAlias := ?_ }, topic, none, ?_, rfl⟩
            · intro x hx; simp at hx
            · rcases htopic with h | h
              · exact .inl h
              · subst h; simp at *
          · simp at hb
  obtain ⟨q, hq1, hq2⟩ := C22_sent e e' e'' _ hidle happ (fun q hq => ⟨(hres q hq).1, .inr (hsize q hq)⟩) cap out hd
  obtain ⟨_, topic, alias, h1, h2⟩ := hres q hq1
  exact ⟨topic, alias, h1, by rw [hq2, h2]⟩

/-! ### Cases -/

def submittedPublish : PublishView := { examplePublish with packetId := 0, payload := [104, 105] }

theorem submitted_accepted : newPublish submittedPublish = some submittedPublish := by decide +kernel

example : PublishTypes submittedPublish := by constructor <;> simp [submittedPublish, examplePublish, OptLt]

example : newSubscribe { subscriptions := [{ topicFilter := utf "a/+/#", qos := 1, retainHandling := 2 },
      { topicFilter := utf "b", noLocal := true }], subscriptionIdentifier := some 5 } ≠ none := by decide +kernel
example : newSubscribe { subscriptions := [{ topicFilter := utf "$share/g/b", noLocal := true }] } = none := by
  decide +kernel
example : newUnsubscribe { topicFilters := [utf "a", utf "b/#"], userProperties := [⟨[107], [118]⟩] } ≠ none := by
  decide +kernel
example : newUnsubscribe { topicFilters := [utf "a", utf "b/#/c"] } = none := by decide +kernel
example : newDisconnect { reasonCode := 4, reasonString := some (utf "bye"), sessionExpiry := some 3 } ≠ none := by
  decide +kernel
example : newDisconnect { reasonCode := 1 } = none := by decide +kernel
example : newPublish { topic := utf "a/#" } = none := by decide +kernel

/-- A CONNECT with an empty user name, which is legal, is stored without one: what is sent is not what the
options say. -/
theorem C22_violated_username : ∃ v w, newConnect v = some w ∧ ConnectRules v ∧ Fits (.connect v) ∧
    meaning (.connect w) ≠ meaning (.connect v) := by
  have hacc : newConnect { clientId := [99], username := some [] } =
      some { clientId := [99], username := none } := by decide +kernel
  refine ⟨_, _, hacc, ((C56_connect _ _).1 hacc).1, ?_, ?_⟩
  · constructor <;> simp [OptLt, OptShort, Short, UserFits]
  · simp [meaning]

end Mqtt.Props
