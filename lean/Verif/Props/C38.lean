import Verif.Negotiated5

/-!
C38: after a successful CONNACK every negotiated setting is the CONNACK's value if present, else the
value requested in the CONNECT that was sent, else the MQTT 5 default.
-/
namespace Mqtt.Props.V5
open Mqtt.V5

/-- What MQTT 5 says the two ends have agreed on, given the CONNECT sent and the CONNACK received
(MQTT 5, 3.1.2.11 and 3.2.2.3).  Absent a CONNACK property:
session expiry as requested, itself 0 by default (3.2.2.3.2); receive maximum 65535 (3.2.2.3.3);
maximum QoS 2, of which this client only uses 1 (3.2.2.3.4); retain available (3.2.2.3.5); maximum
packet size limited only by the protocol, one type byte, four length bytes and the largest remaining
length (3.2.2.3.6); topic alias maximum 0 (3.2.2.3.8); wildcard, identifiers and shared
subscriptions available (3.2.2.3.11-13); keep alive as requested (3.2.2.3.14).  The alias maximum
granted to the server is what the client requested, 0 by default (3.1.2.11.5). -/
def agreed (sent : ConnectView) (k : ConnackView) (clientId : Bytes) : Settings where
  maximumQos := min 1 (k.maximumQos.getD 2)
  sessionExpiry := k.sessionExpiry.getD (sent.sessionExpiry.getD 0)
  receiveMaximumFromServer := k.receiveMaximum.getD 65535
  maximumPacketSizeToServer := k.maximumPacketSize.getD (1 + 4 + 268435455)
  topicAliasMaximumToServer := k.topicAliasMaximum.getD 0
  topicAliasMaximumToClient := sent.topicAliasMaximum.getD 0
  serverKeepAlive := k.serverKeepAlive.getD sent.keepAlive
  retainAvailable := k.retainAvailable.getD true
  wildcardSubscriptions := k.wildcardSubscriptions.getD true
  subscriptionIdentifiers := k.subscriptionIdentifiers.getD true
  sharedSubscriptions := k.sharedSubscriptions.getD true
  rejoinedSession := k.sessionPresent
  clientId := clientId

/-- The client id in use when the server assigns one only to clients that sent none. -/
def idInUse (sent : ConnectView) (k : ConnackView) : Bytes :=
  if sent.clientId = [] then k.assignedClientId.getD [] else sent.clientId

theorem reset_eq (s : Settings) (c : ConnectView) :
    s.reset c = { agreed c {} s.clientId with rejoinedSession := false } := by
  obtain ⟨ka, id, u, p, cs, se, rr, rp, rm, ta, mp, wd, w, up, am, ad⟩ := c
  cases se <;> cases ta <;> simp [Settings.reset, Settings.set, agreed]

/-- `applyConnack` field by field. -/
theorem applyConnack_eq (s : Settings) (k : ConnackView) :
    s.applyConnack k =
      { maximumQos := min s.maximumQos (k.maximumQos.getD s.maximumQos)
        sessionExpiry := k.sessionExpiry.getD s.sessionExpiry
        receiveMaximumFromServer := k.receiveMaximum.getD s.receiveMaximumFromServer
        maximumPacketSizeToServer := k.maximumPacketSize.getD s.maximumPacketSizeToServer
        topicAliasMaximumToServer := k.topicAliasMaximum.getD s.topicAliasMaximumToServer
        topicAliasMaximumToClient := s.topicAliasMaximumToClient
        serverKeepAlive := k.serverKeepAlive.getD s.serverKeepAlive
        retainAvailable := k.retainAvailable.getD s.retainAvailable
        wildcardSubscriptions := k.wildcardSubscriptions.getD s.wildcardSubscriptions
        subscriptionIdentifiers := k.subscriptionIdentifiers.getD s.subscriptionIdentifiers
        sharedSubscriptions := k.sharedSubscriptions.getD s.sharedSubscriptions
        rejoinedSession := k.sessionPresent
        clientId := if s.clientId = [] then k.assignedClientId.getD [] else s.clientId } := by
  have h0 : ∀ (t : Settings) (o : Option Nat), t.set o (fun s x => { s with sessionExpiry := x }) =
      { t with sessionExpiry := o.getD t.sessionExpiry } := by intro t o; cases o <;> rfl
  have h1 : ∀ (t : Settings) (o : Option Nat), t.set o (fun s x => { s with receiveMaximumFromServer := x }) =
      { t with receiveMaximumFromServer := o.getD t.receiveMaximumFromServer } := by intro t o; cases o <;> rfl
  have h2 : ∀ (t : Settings) (o : Option Bool), t.set o (fun s x => { s with retainAvailable := x }) =
      { t with retainAvailable := o.getD t.retainAvailable } := by intro t o; cases o <;> rfl
  have h3 : ∀ (t : Settings) (o : Option Nat), t.set o (fun s x => { s with maximumPacketSizeToServer := x }) =
      { t with maximumPacketSizeToServer := o.getD t.maximumPacketSizeToServer } := by intro t o; cases o <;> rfl
  have h4 : ∀ (t : Settings) (o : Option Nat), t.set o (fun s x => { s with topicAliasMaximumToServer := x }) =
      { t with topicAliasMaximumToServer := o.getD t.topicAliasMaximumToServer } := by intro t o; cases o <;> rfl
  have h5 : ∀ (t : Settings) (o : Option Bool), t.set o (fun s x => { s with wildcardSubscriptions := x }) =
      { t with wildcardSubscriptions := o.getD t.wildcardSubscriptions } := by intro t o; cases o <;> rfl
  have h6 : ∀ (t : Settings) (o : Option Bool), t.set o (fun s x => { s with subscriptionIdentifiers := x }) =
      { t with subscriptionIdentifiers := o.getD t.subscriptionIdentifiers } := by intro t o; cases o <;> rfl
  have h7 : ∀ (t : Settings) (o : Option Bool), t.set o (fun s x => { s with sharedSubscriptions := x }) =
      { t with sharedSubscriptions := o.getD t.sharedSubscriptions } := by intro t o; cases o <;> rfl
  have h8 : ∀ (t : Settings) (o : Option Nat), t.set o (fun s x => { s with serverKeepAlive := x }) =
      { t with serverKeepAlive := o.getD t.serverKeepAlive } := by intro t o; cases o <;> rfl
  have hq : ∀ (t : Settings) (o : Option Nat), t.set o (fun s q =>
      if q < s.maximumQos then { s with maximumQos := q } else s) =
      { t with maximumQos := min t.maximumQos (o.getD t.maximumQos) } := by
    intro t o
    cases o with
    | none => simp [Settings.set]
    | some q =>
      simp only [Option.getD_some, Settings.set]
      split
      · rw [Nat.min_eq_right (by omega)]
      · rw [Nat.min_eq_left (by omega)]
  have hid : ∀ (t : Settings) (o : Option Bytes), t.set o (fun s x => s.applyClientId x) =
      { t with clientId := if t.clientId = [] then o.getD [] else t.clientId } := by
    intro t o
    cases o with
    | none => by_cases h : t.clientId = [] <;> simp [Settings.set, h] <;> rw [← h]
    | some x => by_cases h : t.clientId = [] <;> simp [Settings.set, Settings.applyClientId, h]
  simp only [Settings.applyConnack, h0, h1, h2, h3, h4, h5, h6, h7, h8, hq, hid]

/-- **C38**.  Whatever the settings held before (earlier connections included), after a CONNECT is
built and a successful CONNACK is applied every setting is what MQTT 5 says has been agreed by those
two packets; the client id is the one sent, or the assigned one if none was sent. -/
theorem C38_negotiated_partial (s : Settings) (stored : ConnectView) (b : SessionBehavior) (hc : Bool)
    (aliases : Option Nat) (k : ConnackView) :
    let r := connectView stored b hc aliases s
    r.1.applyConnack k = agreed r.2 k (idInUse r.2 k) := by
  intro r
  have h1 : r.1 = { agreed r.2 {} s.clientId with rejoinedSession := false } := by
    simp only [r, connectView, reset_eq]; rfl
  have h2 : r.2.clientId = s.clientId := by
    simp only [r, connectView, reset_eq]; rfl
  rw [h1, applyConnack_eq]
  simp only [agreed, idInUse, h2]
  congr 1
  cases k.maximumQos <;> simp

/-- The CONNECT sent carries the configured options, except for the client id (see
`C38_client_id`), `clean_start`, and the alias maximum when inbound aliasing is enabled. -/
theorem C38_requested (s : Settings) (stored : ConnectView) (b : SessionBehavior) (hc : Bool)
    (aliases : Option Nat) :
    (connectView stored b hc aliases s).2 =
      { stored with
        clientId := s.clientId
        topicAliasMaximum := aliases.or stored.topicAliasMaximum
        cleanStart := match b with
          | .clean => true
          | .rejoinPostSuccess => !hc
          | .rejoinAlways => false } := by
  cases aliases <;> cases b <;> cases hc <;>
    simp [connectView, shouldResume, reset_eq, agreed] <;> rfl

/-- One connection attempt: `has_connected_successfully` at the time, and the CONNACK if the attempt
got a successful one. -/
def attempt (stored : ConnectView) (b : SessionBehavior) (aliases : Option Nat)
    (s : Settings) (a : Bool × Option ConnackView) : Settings :=
  let s := (connectView stored b a.1 aliases s).1
  match a.2 with
  | some k => s.applyConnack k
  | none => s

/-- The client id a client should present: its own, or else the first non-empty one any server
assigned to it. -/
def presentedId (own : Bytes) (history : List (Bool × Option ConnackView)) : Bytes :=
  if own = [] then
    ((history.filterMap fun a => a.2.bind (·.assignedClientId)).find? (· ≠ [])).getD []
  else own

/-- **C38, client id**: after any history the id held (hence sent in the next CONNECT, by
`C38_requested`) is the configured one, or the first one assigned by a server. -/
theorem C38_client_id (stored : ConnectView) (b : SessionBehavior) (aliases : Option Nat)
    (history : List (Bool × Option ConnackView)) :
    (history.foldl (attempt stored b aliases) (Settings.init stored.clientId)).clientId =
      presentedId stored.clientId history := by
  have key : ∀ (history : List (Bool × Option ConnackView)) (s : Settings),
      (history.foldl (attempt stored b aliases) s).clientId = presentedId s.clientId history := by
    intro history
    induction history with
    | nil => intro s; by_cases h : s.clientId = [] <;> simp [presentedId, h]
    | cons a rest ih =>
      intro s
      obtain ⟨hc, k⟩ := a
      have hid : (connectView stored b hc aliases s).1.clientId = s.clientId := by
        simp only [connectView, reset_eq]; rfl
      rw [List.foldl_cons, ih]
      cases k with
      | none => simp only [attempt, hid]; by_cases h : s.clientId = [] <;> simp [presentedId, h]
      | some k =>
        simp only [attempt, applyConnack_eq, hid]
        by_cases h : s.clientId = []
        · cases ha : k.assignedClientId with
          | none => simp [presentedId, h, ha]
          | some x => by_cases hx : x = [] <;> simp [presentedId, h, ha, hx]
        · simp [presentedId, h]
  exact key history _

/-- The literal reading of C38 (the CONNACK's value whenever present) fails for the client id: a
server that assigns an id to a client which sent one is ignored. -/
theorem C38_violated_client_id :
    ∃ (s : Settings) (k : ConnackView) (x : Bytes), k.assignedClientId = some x ∧
      ((connectView { clientId := [97] } .clean false none s).1.applyConnack k).clientId ≠ x :=
  ⟨Settings.init [97], { assignedClientId := some [98] }, [98], rfl, by decide⟩

/- A CONNECT asking for session expiry 100, a CONNACK granting 50 and QoS 0. -/
example : (connectView { keepAlive := 30, sessionExpiry := some 100 } .rejoinAlways false (some 10)
      (Settings.init [])).1.applyConnack
        { sessionExpiry := some 50, maximumQos := some 0, assignedClientId := some [97] } =
    { maximumQos := 0, sessionExpiry := 50, receiveMaximumFromServer := 65535,
      maximumPacketSizeToServer := 268435460, topicAliasMaximumToServer := 0,
      topicAliasMaximumToClient := 10, serverKeepAlive := 30, retainAvailable := true,
      wildcardSubscriptions := true, subscriptionIdentifiers := true, sharedSubscriptions := true,
      rejoinedSession := false, clientId := [97] } := by decide

end Mqtt.Props.V5
