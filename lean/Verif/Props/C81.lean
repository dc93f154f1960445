import Verif.Lemmas.Storage5
import Verif.Props.C57

/-!
C81: storing an MQTT 5 packet makes an exact copy of it that depends on no memory of the caller.
-/
namespace Mqtt.Props
open Mqtt.V5 Mqtt.Storage5

/-- A PUBLISH is stored as it is. -/
theorem C81_publish {mem : Memory} {v : RawPublish} {w : PublishView} (h : v.read mem = some w) (block : Nat) :
    Stored RawPublish.read block w (publishStorage mem block v) := (stores_publish h).stored block rfl

/-- A SUBSCRIBE is stored as it is. -/
theorem C81_subscribe {mem : Memory} {v : RawSubscribe} {w : SubscribeView} (h : v.read mem = some w) (block : Nat) :
    Stored RawSubscribe.read block w (subscribeStorage mem block v) := (stores_subscribe h).stored block rfl

/-- An UNSUBSCRIBE is stored as it is, but for its packet id. -/
theorem C81_unsubscribe {mem : Memory} {v : RawUnsubscribe} {w : UnsubscribeView} (h : v.read mem = some w) (block : Nat) :
    Stored RawUnsubscribe.read block { w with packetId := 0 } (unsubscribeStorage mem block v) :=
  (stores_unsubscribe h).stored block rfl

/-- A DISCONNECT is stored as it is. -/
theorem C81_disconnect {mem : Memory} {v : RawDisconnect} {w : DisconnectView} (h : v.read mem = some w) (block : Nat) :
    Stored RawDisconnect.read block w (disconnectStorage mem block v) := (stores_disconnect h).stored block rfl

/-- A PUBACK is stored as it is. -/
theorem C81_puback {mem : Memory} {v : RawPuback} {w : PubackView} (h : v.read mem = some w) (block : Nat) :
    Stored RawPuback.read block w (pubackStorage mem block v) := (stores_puback h).stored block rfl

/-- A SUBACK or UNSUBACK is stored as it is. -/
theorem C81_suback {mem : Memory} {v : RawSuback} {w : SubackView} (h : v.read mem = some w) (block : Nat) :
    Stored RawSuback.read block w (subackStorage mem block v) := (stores_suback h).stored block rfl

/-- A CONNACK is stored as it is. -/
theorem C81_connack {mem : Memory} {v : RawConnack} {w : ConnackView} (h : v.read mem = some w) (block : Nat) :
    Stored RawConnack.read block w (connackStorage mem block v) := (stores_connack h).stored block rfl

/-- What storing a CONNECT comes to, given the user name to be stored. -/
theorem connectStored_of {mem : Memory} {v : RawConnect} {w : ConnectView} {platform : Bytes}
    {metrics : Option (Option Metrics.Metrics)} (h : v.read mem = some w) (block willBlock : Nat) {name : Option Bytes}
    (hc : ¬(hasUsername metrics v.username = true ∧ withMetrics platform metrics (w.username.getD []) false = .crash))
    (hu : ∀ P, Stores mem P (usernameStore platform metrics (w.username.getD []) v.username) readOpt name
      (if hasUsername metrics v.username then
        match withMetrics platform metrics (w.username.getD []) false with
        | .ok name => name.length
        | _ => 0
       else 0)) :
    ConnectStored block willBlock { w with username := name } (connectStorage platform metrics mem block willBlock v) := by
  obtain ⟨h1, h2⟩ := connect_parts h
  obtain ⟨r, hr, hn, hb, hk⟩ := willStore_stored (block := willBlock) h2
  obtain ⟨hu1, _⟩ := usernameBytes_eq h1
  obtain ⟨a, ext, he, hl, hs⟩ := stores_connect (P := fun mem' => ∀ x ∈ r.map (·.2), Buf.Kept x mem') h hu hk
    { block, cap := connectSize platform metrics (w.username.getD []) v } (by simp only [connectSize, List.length_nil, Nat.zero_add]; exact Nat.le_refl _)
  refine ⟨a, { block, cap := connectSize platform metrics (w.username.getD []) v, bytes := [] ++ ext }, r.map (·.2), ?_, rfl, ?_, ?_,
    ?_, ?_⟩
  · unfold connectStorage
    rw [hu1]
    simp only
    rw [if_neg hc, hr]
    simp only
    rw [he]
  · simp only [List.nil_append, hl]; rfl
  · simp only [Option.map_eq_none_iff]; exact hn
  · intro x hx
    cases r with
    | none => cases hx
    | some y =>
      cases Option.mem_some.1 hx
      exact hb y (by simp)
  · intro mem' hk' hw'
    exact hs mem' hw' hk'.begins

/-- The CONNECT of the options of a client is stored as it is; an empty user name is not one. -/
theorem C81_options (platform : Bytes) {mem : Memory} {v : RawConnect} {w : ConnectView} (h : v.read mem = some w)
    (block willBlock : Nat) :
    ConnectStored block willBlock (withoutEmpty w) (connectStorage platform none mem block willBlock v) := by
  obtain ⟨h1, h2⟩ := connect_parts h
  obtain ⟨_, hu2⟩ := usernameBytes_eq h1
  refine connectStored_of h block willBlock (fun hx => by cases hx.2) fun P => ?_
  by_cases hh : hasUsername none v.username = true
  · have hh' : w.username.any (fun s => s.length > 0) = true := by
      rw [← hu2]; simpa [hasUsername] using hh
    rw [if_pos hh, if_pos hh']
    cases hw : w.username with
    | none => rw [hw] at hh'; cases hh'
    | some u => exact stores_username hh rfl
  · have hh' : ¬w.username.any (fun s => s.length > 0) = true := by
      rw [← hu2]; simpa [hasUsername] using hh
    rw [if_neg hh, if_neg hh']
    simp only [usernameStore, if_neg hh]
    exact stores_pure fun _ _ => rfl

/-- Without the crash the size that is computed is that of the name. -/
theorem append_size (platform u : Bytes) (m : Option Metrics.Metrics) :
    Metrics.append platform u m false = .crash ∨
      Metrics.append platform u m false = Metrics.append platform u m true := by
  cases m with
  | none => exact .inr rfl
  | some m =>
    rw [append_cases, append_cases]
    split
    · exact .inr rfl
    · split
      · exact .inl rfl
      · exact .inr rfl

theorem append_true_ne (platform u : Bytes) (m : Option Metrics.Metrics) :
    Metrics.append platform u m true ≠ .crash := by
  cases m with
  | none => intro h; cases h
  | some m =>
    rw [append_cases]
    split
    · intro h; cases h
    · split <;> (intro h; cases h)

/-- The CONNECT of a client is stored with the user name that C57 tells of, or not at all. -/
theorem C81_connect (platform : Bytes) (m : Option Metrics.Metrics) {mem : Memory} {v : RawConnect} {w : ConnectView}
    (h : v.read mem = some w) (hv : validateConnect w = true) (block willBlock : Nat) :
    match Metrics.connect platform m w with
    | .ok w' => ConnectStored block willBlock w' (connectStorage platform (some m) mem block willBlock v)
    | .refused => connectStorage platform (some m) mem block willBlock v = .error .failed
    | .crash => connectStorage platform (some m) mem block willBlock v = .error .crash := by
  obtain ⟨h1, h2⟩ := connect_parts h
  obtain ⟨hu1, hu2⟩ := usernameBytes_eq h1
  have hhas : hasUsername (some m) v.username = (w.username.any (fun s => s.length > 0) || m.isSome) := by
    rw [← hu2]; rfl
  unfold Metrics.connect
  rw [hv]
  simp only [Bool.not_true, Bool.false_eq_true, if_false]
  by_cases hh : (w.username.any (fun s => s.length > 0) || m.isSome) = true
  · rw [if_pos hh]
    have hh' : hasUsername (some m) v.username = true := hhas.trans hh
    rcases append_size platform (w.username.getD []) m with hc | hs
    · rw [hc]
      simp only
      unfold connectStorage
      rw [hu1]
      simp only
      rw [if_pos ⟨hh', hc⟩]
    · cases ha : Metrics.append platform (w.username.getD []) m true with
      | ok u =>
        rw [ha] at hs
        rw [hs]
        simp only
        refine connectStored_of h block willBlock (fun hx => ?_) fun P => ?_
        · have := hx.2.symm.trans hs; cases this
        · have hs' : withMetrics platform (some m) (w.username.getD []) false = .ok u := hs
          rw [if_pos hh', hs']
          exact stores_username hh' ha
      | crash => exact absurd ha (append_true_ne _ _ _)
      | error =>
        rw [ha] at hs
        rw [hs]
        simp only
        obtain ⟨r, hr, -, -, -⟩ := willStore_stored (block := willBlock) h2
        have hclient : ∃ c, mem.read v.clientId = some c := by
          unfold RawConnect.read at h
          obtain ⟨c, hc, -⟩ := bind_eq_some h
          exact ⟨c, hc⟩
        obtain ⟨c, hc⟩ := hclient
        obtain ⟨a, ext, he, -, -⟩ := stores_copy (P := fun _ => True) hc
          { block, cap := connectSize platform (some m) (w.username.getD []) v } (by
            simp only [connectSize, List.length_nil, Nat.zero_add, Nat.add_assoc]; exact Nat.le_add_right _ _)
        unfold connectStorage
        rw [hu1]
        simp only
        rw [if_neg (fun hx => by have := hx.2.symm.trans hs; cases this), hr]
        simp only
        have : connectStore platform (some m) (w.username.getD []) v (r.map (·.1)) mem
            { block, cap := connectSize platform (some m) (w.username.getD []) v } = Except.error .failed := by
          unfold connectStore
          rw [store_bind he]
          have hus : usernameStore platform (some m) (w.username.getD []) v.username = fun _ _ => Except.error .failed := by
            have ha' : withMetrics platform (some m) (w.username.getD []) true = .error := ha
            unfold usernameStore
            rw [if_pos hh', ha']
          rw [hus]
          rfl
        rw [this]
  · rw [if_neg hh]
    have hh' : ¬hasUsername (some m) v.username = true := by rw [hhas]; exact hh
    simp only
    refine connectStored_of h block willBlock (fun hx => hh' hx.1) fun P => ?_
    rw [if_neg hh']
    simp only [usernameStore, if_neg hh']
    exact stores_pure fun _ _ => rfl

/-- Nothing about a user name that is not there. -/
theorem connect_withoutEmpty (platform : Bytes) (m : Option Metrics.Metrics) (w : ConnectView) :
    validateConnect (withoutEmpty w) = validateConnect w ∧
      Metrics.connect platform m (withoutEmpty w) = Metrics.connect platform m w := by
  by_cases hu : w.username.any (fun s => s.length > 0) = true
  · have : withoutEmpty w = w := by unfold withoutEmpty; rw [if_pos hu]
    rw [this]; exact ⟨rfl, rfl⟩
  · have hw : withoutEmpty w = { w with username := none } := by unfold withoutEmpty; rw [if_neg hu]
    have hn : w.username = none ∨ w.username = some [] := by
      cases h : w.username with
      | none => exact .inl rfl
      | some s =>
        cases s with
        | nil => exact .inr rfl
        | cons b bs => rw [h] at hu; simp at hu
    rw [hw]
    have hv : validateConnect { w with username := none } = validateConnect w := by
      rcases hn with hn | hn
      · unfold validateConnect; rw [hn]
      · unfold validateConnect; rw [hn]; rfl
    refine ⟨hv, ?_⟩
    unfold Metrics.connect
    rw [hv]
    rcases hn with hn | hn <;> rw [hn] <;> rfl

/-- A client makes its CONNECT of the options it was created with: these are stored, the memory of the caller may be freed or
used for other things, and when a connection is made, the CONNECT is made of what was stored. -/
theorem C81_client (platform : Bytes) (m : Option Metrics.Metrics) {mem : Memory} {v : RawConnect} {w : ConnectView}
    (h : v.read mem = some w) (hv : validateConnect w = true) (block willBlock block' willBlock' : Nat) :
    ∃ a b wb, connectStorage platform none mem block willBlock v = .ok (a, b, wb) ∧
      ∀ mem' : Memory, b.Kept mem' → (∀ x ∈ wb, x.Kept mem') →
        match Metrics.connect platform m w with
        | .ok w' => ConnectStored block' willBlock' w' (connectStorage platform (some m) mem' block' willBlock' a)
        | .refused => connectStorage platform (some m) mem' block' willBlock' a = .error .failed
        | .crash => connectStorage platform (some m) mem' block' willBlock' a = .error .crash := by
  obtain ⟨a, b, wb, he, -, -, -, -, hr⟩ := C81_options platform h block willBlock
  refine ⟨a, b, wb, he, fun mem' hb hw => ?_⟩
  obtain ⟨e1, e2⟩ := connect_withoutEmpty platform m w
  rw [← e2]
  exact C81_connect platform m (hr mem' hb hw) (e1.trans hv) block' willBlock'

/-! ### Cases that meet the hypotheses -/

/-- A PUBLISH with topic "t/a", payload, response topic and a user property in the caller's memory. -/
example : ∃ (mem : Memory) (v : RawPublish) (w : PublishView), v.read mem = some w ∧ w.topic = [116, 47, 97] ∧
    w.responseTopic = some [] ∧ w.userProperties = [{ name := [110], value := [47, 97] }] ∧
    (publishStorage mem 7 v).toOption.map (fun r => (r.1.topic, r.2.bytes)) =
      some ({ block := 7, off := 1, len := 3 }, [112, 116, 47, 97, 110, 47, 97]) := by
  refine ⟨fun b => if b = 0 then some [112, 116, 47, 97, 110] else none,
    { payload := ⟨0, 0, 1⟩, packetId := 0, qos := 1, duplicate := false, retain := false, topic := ⟨0, 1, 3⟩,
      payloadFormat := none, messageExpiry := none, topicAlias := none, responseTopic := some ⟨3, 0, 0⟩,
      correlationData := none, subscriptionIdentifiers := [], contentType := none,
      userProperties := [{ name := ⟨0, 4, 1⟩, value := ⟨0, 2, 2⟩ }] }, _, rfl, rfl, rfl, rfl, ?_⟩
  decide +kernel

/-- A CONNECT with a user name, a will and user properties in the caller's memory. -/
def rawConnect : RawConnect where
  keepAlive := 30
  clientId := ⟨0, 0, 1⟩
  username := some ⟨0, 1, 1⟩
  password := none
  cleanStart := true
  sessionExpiry := none
  requestResponse := none
  requestProblem := none
  receiveMaximum := none
  topicAliasMaximum := none
  maximumPacketSize := none
  willDelay := none
  will := some {
    payload := ⟨0, 0, 0⟩
    packetId := 0
    qos := 1
    duplicate := false
    retain := false
    topic := ⟨0, 2, 1⟩
    payloadFormat := none
    messageExpiry := none
    topicAlias := none
    responseTopic := none
    correlationData := none
    subscriptionIdentifiers := []
    contentType := none
    userProperties := [] }
  userProperties := [{ name := ⟨0, 0, 2⟩, value := ⟨0, 1, 2⟩ }]
  authMethod := none
  authData := none

example : ∃ (mem : Memory) (v : RawConnect) (w : ConnectView), v.read mem = some w ∧ validateConnect w = true ∧
    w.will.isSome = true ∧ w.userProperties.length = 1 ∧
    ∃ w', Metrics.connect [88] (some {}) w = .ok w' ∧ w'.username ≠ w.username := by
  refine ⟨fun b => if b = 0 then some [99, 117, 116] else none, rawConnect, _, rfl, ?_, rfl, rfl, _, rfl, ?_⟩ <;>
    decide +kernel

end Mqtt.Props
