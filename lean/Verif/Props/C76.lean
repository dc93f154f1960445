import Verif.Spec.Options5
import Verif.Lemmas.Client5Connect
import Verif.Lemmas.Client5Run

/-!
C76: the options of the MQTT 5 client.
-/
namespace Mqtt.Props

open Mqtt.Spec Mqtt.V5 Mqtt.Client5 Mqtt.Options5

theorem any_eq_false {α : Type} {o : Option α} {p : α → Bool} : o.any p = false ↔ ∀ x, o = some x → p x = false := by
  cases o <;> simp

theorem all_eq_true {α : Type} {o : Option α} {p : α → Bool} : o.all p = true ↔ ∀ x, o = some x → p x = true := by
  cases o <;> simp

/-- A client can be made from exactly the acceptable options. -/
theorem C76_accepts (portOk : Nat → Nat → Bool) (uuid : Bytes) (o : Options) :
    (store portOk uuid o).isSome = true ↔ Acceptable portOk o := by
  have h0 : (store portOk uuid o).isSome = true ↔ validate portOk o = true := by
    unfold store
    cases hv : validate portOk o
    · simp
    · cases hc : o.connect with
      | some v => simp
      | none =>
        exfalso
        revert hv
        unfold validate
        rw [hc]
        simp
  have hm : ∀ m : Metrics.Metrics, Metrics.validMetrics m = true ↔
      (Text m.libraryName ∧ ∀ e ∈ m.entries, Text e.key ∧ Text e.value) := by
    intro m
    simp only [Metrics.validMetrics, Bool.and_eq_true, List.all_eq_true, validUtf8Text_iff]
  rw [h0]
  unfold validate
  constructor
  · intro h
    repeat' split at h
    all_goals first
      | cases h
      | skip
    rename_i h1 h2 h3 h4 h5 h6 h7 h8 _ v hv h9 h10 h11
    simp only [Bool.not_eq_true, Bool.not_eq_true', Bool.not_eq_false, any_eq_false] at h2 h3 h4 h5 h6 h7 h8 h9 h10 h11
    refine ⟨fun hx => h1 (by rw [hx]; rfl), h2, fun s hs => ?_, h4, ?_, h7, h8, ⟨v, hv, (validateConnect_iff v).1 h9⟩, ?_, ?_⟩
    · have := h3 s hs
      simp only [Bool.or_eq_false_iff, decide_eq_false_iff_not] at this
      exact ⟨this.1, by omega⟩
    · intro x p hp
      have h1 := h5 _ hp
      have h2 := h6 _ hp
      simp only [decide_eq_false_iff_not, Bool.not_eq_false'] at h1 h2
      exact ⟨fun hx => h1 (by rw [hx]; rfl), h2⟩
    · intro a ha
      have h1 := h10 a ha
      have h2 := h11 a ha
      simp only [decide_eq_false_iff_not] at h1 h2
      omega
    · intro m hx
      exact (hm m).1 (all_eq_true.1 h m hx)
  · intro h
    obtain ⟨v, hv, hr⟩ := h.connect
    have hr := (validateConnect_iff v).2 hr
    rw [if_neg (by have := h.host; cases hh : o.hostName <;> simp_all), if_neg (by simp [h.bootstrap]), if_neg, if_neg (by simp [h.port]),
      if_neg, if_neg, if_neg (by simp [h.lifecycle]), if_neg (by simp [h.publish]), hv]
    · simp only
      rw [if_neg (by simp [hr]), if_neg, if_neg]
      · exact all_eq_true.2 fun m hx => (hm m).2 (h.metrics m hx)
      · rw [Bool.not_eq_true, any_eq_false]
        intro a ha
        have := h.aliases a ha
        simp only [decide_eq_false_iff_not]; omega
      · rw [Bool.not_eq_true, any_eq_false]
        intro a ha
        have := h.aliases a ha
        simp only [decide_eq_false_iff_not]; omega
    · rw [Bool.not_eq_true, any_eq_false]
      intro p hp
      simp [(h.proxy p.1 p.2 hp).2]
    · rw [Bool.not_eq_true, any_eq_false]
      intro p hp
      have := (h.proxy p.1 p.2 hp).1
      simpa using this
    · rw [Bool.not_eq_true, any_eq_false]
      intro s hs
      have := h.socket s hs
      simp only [this.1, Bool.false_or, decide_eq_false_iff_not]
      omega

/-- What `store` gives. -/
theorem store_eq {portOk : Nat → Nat → Bool} {uuid : Bytes} {o : Options} {s : Storage} (h : store portOk uuid o = some s) :
    ∃ asked, o.connect = some asked ∧ s.retry = o.retry.withDefaults ∧ s.client = {
      offline := o.offline.resolve
      session := o.session.resolve
      ackTimeoutSeconds := orElse o.ackTimeoutSeconds 60
      pingTimeoutMs := orElse o.pingTimeoutMs 30000
      connackTimeoutMs := orElse o.connackTimeoutMs 20000
      connect := { asked with
        clientId := clientIdFor uuid o.extended asked.clientId
        username := if asked.username.any (fun s => s.length > 0) then asked.username else none }
      inboundAliases := inboundAliasing o
      outboundAliases := outboundBehavior (o.aliasing.getD {}).outbound
      extended := o.extended } := by
  unfold store at h
  split at h
  · cases h
  · split at h
    · cases h
    · rename_i asked ha
      simp only [Option.some.injEq] at h
      refine ⟨asked, ha, by rw [← h], ?_⟩
      rw [← h]
      have h1 : (if (o.aliasing.getD {}).withDefaults.inbound = 1 then some (o.aliasing.getD {}).withDefaults.inboundSize
          else none) = inboundAliasing o := by
        unfold inboundAliasing
        cases o.aliasing <;> rfl
      simp only [orElse]
      rw [h1]
      rfl

/-- Options that are left zero have the documented values. -/
theorem C76_defaults {portOk : Nat → Nat → Bool} {uuid : Bytes} {o : Options} {s : Storage}
    (h : store portOk uuid o = some s) : Documented o s := by
  obtain ⟨asked, _, hr, hc⟩ := store_eq h
  refine ⟨?_, ?_, ?_, ?_, ?_, ?_, ?_, ?_, ?_, ?_, ?_, ?_, ?_, ?_⟩
  case refine_1 => rw [hr]; rfl
  case refine_2 => rw [hr]; rfl
  case refine_3 => rw [hr]; rfl
  case refine_4 => rw [hr]; rfl
  all_goals rw [hc]
  · cases o.session <;> simp [Session.resolve]
  · cases o.session <;> simp [Session.resolve]
  · cases o.session <;> simp [Session.resolve]
  · cases o.offline <;> simp [Offline.resolve]
  · cases o.offline <;> simp [Offline.resolve]
  · cases o.offline <;> simp [Offline.resolve]

theorem username_none (u : Option Bytes) :
    (if u.any (fun s => s.length > 0) then u else none) = if u = some [] then none else u := by
  cases u with
  | none => simp
  | some s => cases s <;> simp

theorem newConnect_eq {a v : ConnectView} (h : newConnect a = some v) :
    v = { a with username := if a.username.any (fun s => s.length > 0) then a.username else none } := by
  unfold newConnect at h
  split at h
  · cases h
  · injection h with h
    exact h.symm

/-- Every CONNECT of a client is the one its options ask for. -/
theorem C76_connect {portOk : Nat → Nat → Bool} {uuid : Bytes} {o : Options} {s : Storage}
    (h : store portOk uuid o = some s) {c : Client} (hr : Client5.Reachable s.client c) {u : Nat} {v : ConnectView} {w : Bytes}
    (hs : .started u (.connect v) w ∈ c.ops.log) : ∃ asked, o.connect = some asked ∧ Meant uuid o asked v := by
  obtain ⟨asked, ha, _, hc⟩ := store_eq h
  obtain ⟨h1, h2⟩ := (reachable_connect hr).sent u v w hs
  refine ⟨asked, ha, ?_, ?_, ?_⟩
  · have h1 := newConnect_eq h1
    rw [hc] at h1
    simp only at h1
    rw [username_none asked.username] at h1
    have h3 : (if (if asked.username = some [] then none else asked.username).any (fun s => s.length > 0) then
        (if asked.username = some [] then none else asked.username) else none) =
        if asked.username = some [] then none else asked.username := by
      rw [username_none]
      cases hx : asked.username with
      | none => simp
      | some s => cases s <;> simp
    rw [h3] at h1
    exact h1
  · intro hn
    have h3 : s.client.connect.clientId = asked.clientId := by
      rw [hc]
      simp only [clientIdFor]
      rw [if_neg]
      rintro ⟨h4, _⟩
      exact hn (List.eq_nil_of_length_eq_zero h4)
    rw [h2 (by rw [h3]; exact hn), h3]
  · intro hn he
    have h3 : s.client.connect.clientId = [103, 101, 110] ++ uuid := by
      rw [hc]
      simp only [clientIdFor, hn, he]
      rfl
    rw [h2 (by rw [h3]; simp), h3]

/-- A client with extended validation never sends an empty client id. -/
theorem C76_named {portOk : Nat → Nat → Bool} {uuid : Bytes} {o : Options} {s : Storage}
    (h : store portOk uuid o = some s) (he : o.extended = true) {c : Client} (hr : Client5.Reachable s.client c) {u : Nat}
    {v : ConnectView} {w : Bytes} (hs : .started u (.connect v) w ∈ c.ops.log) : v.clientId ≠ [] := by
  obtain ⟨asked, _, hm⟩ := C76_connect h hr hs
  by_cases hn : asked.clientId = []
  · rw [hm.made hn he]; simp
  · rw [hm.id hn]; exact hn

/-- A CONNECT sent over a connection that was opened when the client was in the state `c` (waiting for a CONNACK) asks for
the session as the session behavior says. -/
theorem C76_session {portOk : Nat → Nat → Bool} {uuid : Bytes} {o : Options} {s : Storage}
    (h : store portOk uuid o = some s) {c c' : Client} (hr : Client5.Reachable s.client c) (hs : c.ctl.state = .mqttConnect)
    (hl : Later s.client c c') {a b : List Effect} {u : Nat} {v : ConnectView} {w : Bytes}
    (hlog : c'.ops.log = c.ops.log ++ a ++ .started u (.connect v) w :: b) (hd : .disconnected ∉ a) :
    v.cleanStart = !resumes o (joined c.ctl.events) := by
  have hi := reachable_connect hr
  obtain ⟨new, h1, h2, _⟩ := (same_later hr (same_start hi hs) hl).1.sent
  rw [h1, List.append_assoc] at hlog
  rw [h2 a u v w b (List.append_cancel_left hlog) hd, hi.flag]
  obtain ⟨_, _, _, hc⟩ := store_eq h
  have hx : s.client.session = o.session.resolve := by rw [hc]
  rw [hx]
  unfold shouldResume resumes
  cases o.session <;> cases joined c.ctl.events <;> rfl

/-! ## Examples -/

/-- Options that ask for the session after the first success, for a client id, and for inbound aliases. -/
def rejoinOptions : Options :=
  { hostName := [97], bootstrap := true, publishHandler := true, lifecycleHandler := true, extended := true
    session := .rejoinPostSuccess, aliasing := some { inbound := 1 }
    connect := some { keepAlive := 30, username := some [], topicAliasMaximum := some 3 } }

def rejoinStorage : Storage := ((store (fun _ _ => true) [49, 50] rejoinOptions).getD
  { client := {}, retry := {}, aliasing := {}, metrics := none })

example : store (fun _ _ => true) [49, 50] rejoinOptions = some rejoinStorage := by decide +kernel

example : store (fun _ _ => true) [49, 50] { rejoinOptions with connect := none } = none ∧
    store (fun _ _ => true) [49, 50] { rejoinOptions with hostName := [] } = none ∧
    store (fun p _ => p != 0) [49, 50] rejoinOptions = none := by decide +kernel

/-- The client connects, loses the connection, connects again, is stopped, and connects again: the CONNECT packets have
the client id `gen12`, 25 aliases, no user name, and ask for the session the second time only. -/
example : (run rejoinStorage.client (Client.new rejoinStorage.client)
    (connectWith {} ++ [.shutdown .hangup, .service {}, .setup none 0, .service {}, .writeComplete .success,
      .packet (.connack {}) false 0, .setDesired .stopped none, .service {}, .shutdown .success] ++ connectWith {})).test
    (fun c => decide ((c.ops.log.filterMap fun
      | .started _ (.connect v) _ => some v
      | _ => none) =
      let v : ConnectView := { keepAlive := 30, topicAliasMaximum := some 25, clientId := [103, 101, 110, 49, 50] }
      [{ v with cleanStart := true }, { v with cleanStart := false }, { v with cleanStart := true }])) = true := by
  decide +kernel

end Mqtt.Props
