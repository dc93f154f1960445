import Verif.Lemmas.Client5Stream

/-!
The order of the packets the MQTT 5 client sends on a connection.
-/
namespace Mqtt.Client5

open Mqtt.V5 Mqtt.Spec Mqtt.Spec5

/-- A packet begun comes in its place. -/
def Placed (a : List Effect) (x : Effect) : Prop :=
  ∀ u p w, x = .started u p w →
    (isConnect p = true → begun (recent a) = []) ∧ (∀ q ∈ begun (recent a), isDisconnect q = false) ∧
      (isConnect p = false → isDisconnect p = false → live a = true)

theorem placed_dry {log new : List Effect} (h : Each Placed log) (hn : ∀ e ∈ new, dry e = true) : Each Placed (log ++ new) :=
  h.boring (f := fun e => !dry e) (by simpa using hn) fun a x hx => by
    rintro u p w rfl; cases hx

theorem placed_one {log : List Effect} (h : Each Placed log) {x : Effect} (hx : Placed log x) :
    Each Placed (log ++ [x]) := by
  refine h.append fun a y b hab => ?_
  cases a with
  | cons z a => simp at hab
  | nil =>
    simp only [List.nil_append, List.cons.injEq] at hab
    obtain ⟨rfl, _⟩ := hab
    rw [List.append_nil]
    exact hx

theorem dry_begun {log new : List Effect} (h : ∀ e ∈ new, dry e = true) :
    begun (recent (log ++ new)) = begun (recent log) := by
  induction new generalizing log with
  | nil => simp
  | cons e new ih =>
    have he := h e (by simp)
    have h1 := ih (log := log ++ [e]) fun x hx => h x (by simp [hx])
    rw [List.append_assoc, List.singleton_append] at h1
    rw [h1, recent_one]
    cases e <;> first
      | cases he; done
      | simp [recentOne, begun]

/-- How many DISCONNECT packets are queued. -/
def goodbyes (q : List Op) : Nat := q.countP fun o => isDisconnect o.packet

/-- How many CONNECT packets are queued. -/
def hellos (q : List Op) : Nat := q.countP fun o => isConnect o.packet

theorem goodbyes_edges (q : List Op) : goodbyes q = goodbyes (edges q) := by
  unfold goodbyes edges
  rw [List.countP_filter]
  congr 1
  funext o
  cases isDisconnect o.packet <;> simp

theorem hellos_edges (q : List Op) : hellos q = hellos (edges q) := by
  unfold hellos edges
  rw [List.countP_filter]
  congr 1
  funext o
  cases isConnect o.packet <;> simp

theorem not_both {p : Outgoing} (h : isDisconnect p = true) : isConnect p = false := by
  cases p <;> first | rfl | cases h

/-- DISCONNECT packets that are queued or begun. -/
def partings (c : Client) : Nat := goodbyes c.ops.queued + (begun (recent c.ops.log)).countP isDisconnect

structure Ordered (c : Client) : Prop where
  one : partings c ≤ 1
  none : c.ctl.state ≠ .cleanDisconnect → partings c = 0
  hello : c.ctl.state = .mqttConnect → hellos c.ops.queued ≤ 1 ∧ (hellos c.ops.queued ≠ 0 → begun (recent c.ops.log) = [])

structure PlaceInv (c : Client) : Prop where
  each : Each Placed c.ops.log
  opened : c.ctl.state.open = true → Ordered c
  quiet : c.ctl.state.quiet = true → edges c.ops.queued = [] ∧ begun (recent c.ops.log) = []

theorem Still.placed {c c' : Client} (h : Still c c') (hi : Each Placed c.ops.log) : Each Placed c'.ops.log := by
  obtain ⟨n, h1, h2⟩ := h.log
  rw [h1]
  exact placed_dry hi h2

theorem Still.begun {c c' : Client} (h : Still c c') : begun (recent c'.ops.log) = Client5.begun (recent c.ops.log) := by
  obtain ⟨n, h1, h2⟩ := h.log
  rw [h1]
  exact dry_begun h2

theorem Still.ordered {c c' : Client} (h : Still c c') (ho : c'.ctl.state.open = true) (hi : Ordered c) : Ordered c' := by
  have hb := h.begun
  rcases h.ends with hs | ⟨hst, h1, h2, op, hd, hs⟩
  · have g : goodbyes c'.ops.queued ≤ goodbyes c.ops.queued := by
      rw [goodbyes_edges, goodbyes_edges c.ops.queued]; exact hs.countP_le
    have k : hellos c'.ops.queued ≤ hellos c.ops.queued := by
      rw [hellos_edges, hellos_edges c.ops.queued]; exact hs.countP_le
    have hp : partings c' ≤ partings c := by unfold partings; rw [hb]; omega
    refine ⟨Nat.le_trans hp hi.one, fun hn => ?_, fun hm => ?_⟩
    · have : c.ctl.state ≠ .cleanDisconnect := by
        intro hx
        cases hs' : c'.ctl.state with
        | connected => have := h.up hs'; rw [hx] at this; cases this
        | mqttConnect => have := h.start hs'; rw [hx] at this; cases this
        | cleanDisconnect => exact hn hs'
        | _ => rw [hs'] at ho; cases ho
      have := hi.none this
      omega
    · obtain ⟨a, b⟩ := hi.hello (h.start hm)
      exact ⟨by omega, fun hx => by rw [hb]; exact b (by omega)⟩
  · have g : goodbyes c'.ops.queued ≤ goodbyes c.ops.queued + 1 := by
      rw [goodbyes_edges, goodbyes_edges c.ops.queued]
      refine Nat.le_trans hs.countP_le ?_
      simp [goodbyes, hd]
    have hz := hi.none (by rcases hst with hst | hst <;> simp [hst])
    have hp : partings c' ≤ partings c + 1 := by unfold partings; rw [hb]; omega
    refine ⟨by omega, fun hn => ?_, fun hm => absurd hm h2⟩
    exfalso
    revert ho
    cases hs' : c'.ctl.state with
    | connected => exact absurd hs' h1
    | mqttConnect => exact absurd hs' h2
    | cleanDisconnect => exact absurd hs' hn
    | _ => intro ho; cases ho

theorem Still.place {c c' : Client} (h : Still c c') (hi : PlaceInv c) : PlaceInv c' := by
  refine ⟨h.placed hi.each, fun ho => h.ordered ho (hi.opened (h.opened ho)), fun hq => ?_⟩
  obtain ⟨h1, h2⟩ := hi.quiet (h.quiet hq)
  refine ⟨?_, h.begun.trans h2⟩
  rcases h.ends with hs | ⟨hst, _⟩
  · rw [h1] at hs
    exact List.eq_nil_of_sublist_nil hs
  · have := h.quiet hq
    rcases hst with hst | hst <;> rw [hst] at this <;> cases this

/-! ## Connections begin and end -/

theorem place_shutdownFinal {cfg : Config} {c : Client} (e : Error) (h : Each Placed c.ops.log) :
    PlaceInv (c.shutdownFinal cfg e) := by
  have h1 : Each Placed (c.ops.onDisconnection cfg).log := by
    rw [onDisconnection_log, ← List.append_assoc]
    exact placed_one (placed_dry h (dry_completions _ _)) (by intro u p w h; cases h)
  have h2 : recent (c.ops.onDisconnection cfg).log = [] := by
    rw [onDisconnection_log, ← List.append_assoc, recent_one]
    rfl
  have h0 : edges (c.ops.onDisconnection cfg).queued = [] := by
    rw [onDisconnection_queued]
    unfold edges keep
    rw [List.filter_filter, List.filter_eq_nil_iff]
    intro o _ hx
    simp only [Bool.and_eq_true, Bool.or_eq_true] at hx
    obtain ⟨hx, hr⟩ := hx
    have : isUser o.packet = true := by
      revert hr
      unfold retained
      cases cfg.offline <;> cases isUser o.packet <;> simp
    revert hx this
    cases o.packet <;> simp [isConnect, isDisconnect, isUser]
  have h3 : ∀ k : Control, k.state.quiet = true → PlaceInv ⟨c.ops.onDisconnection cfg, k⟩ := by
    intro k hk
    refine ⟨h1, ?_, fun _ => ⟨h0, by simp only [h2]; rfl⟩⟩
    intro ho
    revert hk ho
    simp only
    cases k.state <;> simp [State.open, State.quiet]
  unfold Client.shutdownFinal
  simp only
  split
  · exact h3 _ rfl
  · generalize c.ctl.channelGone (c.ops.lostOnDisconnection cfg) e = k
    have h4 := (still_toStopped (c := ⟨c.ops.onDisconnection cfg, { k with state := .stopped }⟩) rfl).place (h3 _ rfl)
    exact h4

theorem place_setup {cfg : Config} {c c' : Client} {err : Option Error} {now : Nat} (hi : PlaceInv c)
    (h : c.setup cfg err now = .ok c') : PlaceInv c' := by
  unfold Client.setup at h
  split at h
  · cases h; exact place_shutdownFinal _ hi.each
  · split at h
    · cases h
    · rename_i hst
      have hst : c.ctl.state = .connecting := by simpa using hst
      obtain ⟨q1, q2⟩ := hi.quiet (by rw [hst]; rfl)
      split at h
      · cases h
        exact ⟨hi.each, by simp [State.open], by simp [State.quiet]⟩
      · unfold Client.toMqttConnect at h
        split at h
        · cases h
        · split at h
          · cases h
          · simp only at h
            have shut : ∀ (s : OpState) (k : Control) (e : Error), s.log = c.ops.log → k.state = .mqttConnect →
                k.slot = true → PlaceInv ⟨s, k.shutdownChannel e⟩ := by
              intro s k e hl hk hs
              have hst : (k.shutdownChannel e).state = .channelShutdown := by
                unfold Control.shutdownChannel
                simp [hk, hs, State.open]
              exact ⟨by rw [hl]; exact hi.each, by simp [hst, State.open], by simp [hst, State.quiet]⟩
            split at h
            · cases h; exact shut _ _ _ rfl rfl rfl
            · split at h
              · cases h; exact shut _ _ _ rfl rfl rfl
              · cases h
                have g := goodbyes_edges c.ops.queued
                have k := hellos_edges c.ops.queued
                rw [q1] at g k
                have hp : ∀ q : List Op, ∀ v u, goodbyes q = 0 → hellos q = 0 →
                    goodbyes ({ uid := u, packet := .connect v } :: q) = 0 ∧
                      hellos ({ uid := u, packet := .connect v } :: q) = 1 := by
                  intro q v u h1 h2
                  simp only [goodbyes, hellos] at h1 h2 ⊢
                  rw [List.countP_cons, List.countP_cons, h1, h2]
                  exact ⟨rfl, rfl⟩
                obtain ⟨p1, p2⟩ := hp c.ops.queued _ c.ops.nextUid g k
                refine ⟨hi.each, fun _ => ?_, by simp [State.quiet]⟩
                refine ⟨?_, fun _ => ?_, fun _ => ⟨?_, fun _ => q2⟩⟩
                · simp only [partings, OpState.pushFront, OpState.newOp, q2]
                  rw [p1]
                  simp
                · simp only [partings, OpState.pushFront, OpState.newOp, q2]
                  rw [p1]
                  simp
                · simp only [OpState.pushFront, OpState.newOp]
                  rw [p2]
                  exact Nat.le_refl _

theorem goodbyes_packets {q q' : List Op} (h : q.map (fun o => (o.uid, o.packet)) = q'.map fun o => (o.uid, o.packet)) :
    goodbyes q = goodbyes q' := by
  have : ∀ q : List Op, goodbyes q = (q.map fun o => (o.uid, o.packet)).countP fun x => isDisconnect x.2 := by
    intro q
    rw [List.countP_map]
    rfl
  rw [this, this, h]

/-- An answer to CONNECT. -/
theorem place_onConnack {cfg : Config} {c c' : Client} {v : ConnackView} {now : Nat} (hl : LiveInv c) (hi : PlaceInv c)
    (hst : c.ctl.state = .mqttConnect) (h : c.onConnack cfg v now = .ok c') : PlaceInv c' := by
  unfold Client.onConnack at h
  split at h
  · split at h
    · cases h
    · rename_i k hk
      unfold Control.emitFinalConnack at hk
      split at hk
      · cases hk
      · cases hk; cases h; exact (still_emitShutdown ..).place hi
  · simp only at h
    have hi1 : PlaceInv { c with ctl := { c.ctl with settings := c.ctl.settings.applyConnack v } } := by
      have h1 : Still c { c with ctl := { c.ctl with settings := c.ctl.settings.applyConnack v } } := Still.ctl (.inl rfl)
      exact h1.place hi
    split at h
    · split at h
      · cases h
      · rename_i k hk
        unfold Control.emitFinalConnack at hk
        split at hk
        · cases hk
        · cases hk; cases h; exact (still_emitShutdown ..).place hi1
    · cases h
      have hf := hi.opened (by rw [hst]; rfl)
      generalize c.ctl.settings.applyConnack v = st at *
      have hctl := (toConnected_ctl cfg { c with ctl := { c.ctl with settings := st } } now).2
      have hlog : (Client.toConnected cfg { c with ctl := { c.ctl with settings := st } } now).ops.log =
          c.ops.log ++ completions (lostOnConnection cfg st c.ops) .offlinePolicy ++ [.connected st] := by
        simp [Client.toConnected]
      have hb : begun (recent (Client.toConnected cfg { c with ctl := { c.ctl with settings := st } } now).ops.log) =
          begun (recent c.ops.log) := by
        rw [hlog, recent_one]
        simp only [recentOne, begun_append, dry_begun (dry_completions _ _)]
        simp [begun]
      have hz := hf.none (by simp [hst])
      have hq : goodbyes (Client.toConnected cfg { c with ctl := { c.ctl with settings := st } } now).ops.queued =
          goodbyes c.ops.queued := by
        have h1 : (Client.toConnected cfg { c with ctl := { c.ctl with settings := st } } now).ops.queued =
            (changeStatsAll (completeStats c.ops.stats (lostOnConnection cfg st c.ops)) true false
              (requeued cfg st c.ops)).2 := by simp [Client.toConnected]
        rw [h1, goodbyes_packets (changeStatsAll_packets ..)]
        have key : ∀ l : List Op, (∀ o ∈ l, o ∈ c.ops.unacked) → goodbyes l = 0 := by
          intro l hl'
          unfold goodbyes
          rw [List.countP_eq_zero]
          intro o ho
          have := hl.acked o (hl' o ho)
          revert this
          cases o.packet <;> simp [requiresAck, isDisconnect]
        have app : ∀ a b : List Op, goodbyes (a ++ b) = goodbyes a + goodbyes b := by
          intro a b; exact List.countP_append
        unfold requeued
        split
        · rw [app, app, key _ (fun o ho => (List.mem_filter.1 ho).1), key _ (fun o ho => (List.mem_filter.1 ho).1)]
          omega
        · rw [app, key (keep cfg.offline c.ops.unacked) (fun o ho => (List.mem_filter.1 ho).1)]
          omega
      have hp : partings (Client.toConnected cfg { c with ctl := { c.ctl with settings := st } } now) = 0 := by
        unfold partings
        rw [hb, hq]
        exact hz
      refine ⟨?_, fun _ => ⟨by rw [hp]; exact Nat.zero_le _, fun _ => hp, fun hm => ?_⟩, ?_⟩
      · rw [hlog]
        exact placed_one (placed_dry hi.each (dry_completions _ _)) (by intro u p w h; cases h)
      · rcases hctl with hctl | hctl <;> rw [hctl] at hm <;> cases hm
      · intro hq
        rcases hctl with hctl | hctl <;> rw [hctl] at hq <;> cases hq

/-! ## Serving the queue -/

theorem kinds_withPacketId (p : Outgoing) (i : Nat) :
    isConnect (withPacketId p i) = isConnect p ∧ isDisconnect (withPacketId p i) = isDisconnect p := by
  cases p <;> exact ⟨rfl, rfl⟩

/-- An operation is set up. -/
theorem start_place {cfg : Config} {c : Client} {op : Op} {rest : List Op} {s : OpState} {ok : Bool}
    (hl : LiveInv c) (hq : c.ops.queued = op :: rest) (he : c.invalid cfg op.packet = none)
    (hst : c.ctl.state = .connected ∨ c.ctl.state = .mqttConnect ∧ isConnect op.packet = true ∨
      c.ctl.state = .cleanDisconnect ∧ isDisconnect op.packet = true)
    (hs : ({ c.ops with queued := rest } : OpState).setCurrent op = .ok (s, ok)) (hi : Each Placed c.ops.log)
    (ht : Ordered c) : Each Placed s.log ∧ Ordered ⟨s, c.ctl⟩ := by
  have hg : goodbyes c.ops.queued = goodbyes rest + (if isDisconnect op.packet = true then 1 else 0) := by
    rw [hq]; simp [goodbyes, List.countP_cons]
  have hh : hellos c.ops.queued = hellos rest + (if isConnect op.packet = true then 1 else 0) := by
    rw [hq]; simp [hellos, List.countP_cons]
  have hone := ht.one
  have hnone := ht.none
  unfold partings at hone hnone
  rcases setCurrent_cases hs with ⟨rfl, p, n, enc, rfl, _⟩ | ⟨rfl, op', n, enc, rfl, hb, ha⟩
  · have hd : ∀ e ∈ [Effect.dropped op.uid p], dry e = true := by simp [dry]
    refine ⟨placed_dry hi hd, ⟨?_, fun hn => ?_, fun hm => ?_⟩⟩
    · simp only [partings, dry_begun hd]
      omega
    · have := hnone hn
      simp only [partings, dry_begun hd]
      omega
    · simp only at hm ⊢
      rw [dry_begun hd]
      obtain ⟨h1, h2⟩ := ht.hello hm
      exact ⟨by omega, fun h => h2 (by omega)⟩
  · have hp : isConnect op'.packet = isConnect op.packet ∧ isDisconnect op'.packet = isDisconnect op.packet := by
      rcases bind_cases hb with ⟨_, _, rfl⟩ | ⟨_, id, _, _, rfl⟩
      · exact ⟨rfl, rfl⟩
      · exact kinds_withPacketId ..
    obtain ⟨hpc, hpd⟩ := hp
    generalize (stepsBytes enc.steps).drop (stepsBytes c.ops.encoder.steps).length = w at *
    have hbeg : begun (recent (c.ops.log ++ [.started op'.uid op'.packet w])) =
        begun (recent c.ops.log) ++ [op'.packet] := by
      simp [recent_one, recentOne, begun]
    -- no DISCONNECT has been begun
    have hnod : (begun (recent c.ops.log)).countP isDisconnect = 0 := by
      rcases hst with hst | ⟨hst, _⟩ | ⟨_, hd⟩
      · have := hnone (by simp [hst]); omega
      · have := hnone (by simp [hst]); omega
      · rw [hd] at hg; simp only [if_true] at hg; omega
    -- a CONNECT only starts while nothing has been begun
    have hcon : isConnect op.packet = true → c.ctl.state = .mqttConnect ∧ begun (recent c.ops.log) = [] ∧ hellos rest = 0 := by
      intro hc
      rcases hst with hst | ⟨hst, _⟩ | ⟨_, hd⟩
      · exfalso
        obtain ⟨sz, hsz, _⟩ := invalid_none he (.inl hst)
        revert hc hsz
        cases op.packet <;> simp [isConnect, encodedSize]
      · obtain ⟨h1, h2⟩ := ht.hello hst
        rw [hc] at hh
        simp only [if_true] at hh
        exact ⟨hst, h2 (by omega), by omega⟩
      · rw [not_both hd] at hc; cases hc
    have hcd : (begun (recent (c.ops.log ++ [.started op'.uid op'.packet w]))).countP isDisconnect =
        (begun (recent c.ops.log)).countP isDisconnect + (if isDisconnect op.packet = true then 1 else 0) := by
      rw [hbeg, List.countP_append]
      simp [List.countP_cons, hpd]
    refine ⟨placed_one hi ?_, ⟨?_, fun hn => ?_, fun hm => ?_⟩⟩
    · intro u p w' hx
      cases hx
      refine ⟨fun hc => (hcon (hpc ▸ hc)).2.1, ?_, fun h1 h2 => ?_⟩
      · intro q hq
        have := List.countP_eq_zero.1 hnod q hq
        simpa using this
      · rw [hpc] at h1
        rw [hpd] at h2
        rcases hst with hst | ⟨_, hc⟩ | ⟨_, hd⟩
        · exact hl.up hst
        · rw [h1] at hc; cases hc
        · rw [h2] at hd; cases hd
    · simp only [partings]
      rw [hcd]
      omega
    · have := hnone hn
      simp only [partings]
      rw [hcd]
      omega
    · simp only at hm ⊢
      have hc : isConnect op.packet = true := by
        rcases hst with hst | ⟨_, hc⟩ | ⟨hst, _⟩
        · rw [hst] at hm; cases hm
        · exact hc
        · rw [hst] at hm; cases hm
      have := (hcon hc).2.2
      exact ⟨by omega, fun h => absurd this h⟩

/-- The operation taken, still in its place. -/
theorem takeNext_back {cfg : Config} {env : Env} {op : Op} (q : List Op) (c c' : Client) (hq : c.ops.queued = q)
    (h : c.takeNext cfg env q = (c', .next op)) :
    Still c { c' with ops := { c'.ops with queued := op :: c'.ops.queued } } := by
  induction q generalizing c with
  | nil => rw [Client.takeNext] at h; cases h
  | cons o rest ih =>
    have h0 : Still c { c with ops := { c.ops with queued := rest } } :=
      .ops (List.append_nil _).symm (by simp) rfl rfl (by rw [hq]; exact (List.sublist_cons_self ..).filter _)
    rw [Client.takeNext] at h
    split at h
    · cases h
    · simp only at h
      split at h
      · cases h
        exact .ops (List.append_nil _).symm (by simp) rfl rfl (by rw [hq]; exact List.Sublist.refl _)
      · split at h
        · cases h
        · exact (h0.trans (still_complete ..)).trans (ih _ rfl h)

theorem load_place {cfg : Config} {env : Env} {c c' : Client} {e : Option Error} (hz : WholeInv cfg c)
    (hcan : c.ops.current = none → CanTake c.ctl.state c.ops.queued ∧ Flows c c.ops.queued)
    (hi : PlaceInv c) (h : c.load cfg env = .ok (c', e)) : PlaceInv c' := by
  unfold Client.load at h
  split at h
  · cases h; exact hi
  · rename_i hc
    have hc : c.ops.current = none := by simpa using hc
    rcases hx : c.takeNext cfg env c.ops.queued with ⟨c2, t⟩
    have hstill := takeNext_still (cfg := cfg) (env := env) c.ops.queued c rfl
    rw [hx] at h hstill
    have h1 := takeNext_moves (g := .any) rfl hc (hcan hc).1 (hcan hc).2 hx
    cases t with
    | nothing => cases h; exact hstill.place hi
    | failed => cases h; exact hstill.place hi
    | next op =>
      have hback := takeNext_back _ c c2 rfl hx
      rcases h1 with h1 | ⟨o, r, c1, h1, h2, h3, h4, h5, h6, h7, h8⟩
      · exact absurd rfl (h1.1 op)
      · cases h1
        simp only at h
        split at h
        · cases h
        · rename_i s ok hs
          cases h
          have hz1 : WholeInv cfg c1 := whole_moves hz h2
          subst h6
          have hback : Still c c1 := by
            have : c1 = { c1 with ops := { c1.ops with queued := op :: r } } := by rw [← h3]
            rw [this]
            exact hback
          have hi1 := hback.place hi
          have ho : c1.ctl.state.open = true := by rcases h7 with h7 | ⟨h7, _⟩ | ⟨h7, _⟩ <;> rw [h7] <;> rfl
          have h9 := start_place hz1.size.safe.inv.live h3 h5 h7 hs hi1.each (hi1.opened ho)
          refine ⟨h9.1, fun _ => h9.2, fun hq => ?_⟩
          exfalso
          revert ho hq
          simp only
          cases c1.ctl.state <;> simp [State.open, State.quiet]

theorem serviceLoop_place {cfg : Config} {env : Env} {fuel k : Nat} {buf : Buf} {c : Client}
    {r : Client × Buf × Option Error} (hz : WholeInv cfg c)
    (hcan : c.ops.current = none → CanTake c.ctl.state c.ops.queued ∧ Flows c c.ops.queued) (hi : PlaceInv c)
    (h : c.serviceLoop cfg env fuel k buf = .ok r) : PlaceInv r.1 := by
  induction fuel generalizing c k buf with
  | zero => simp only [Client.serviceLoop] at h; cases h; exact hi
  | succ fuel ih =>
    rw [Client.serviceLoop] at h
    split at h
    · cases h
    · rename_i c1 e hl
      cases h
      exact load_place hz hcan hi hl
    · rename_i c1 hl
      have hi1 := load_place hz hcan hi hl
      have m1 := load_moves (g := .any) hcan hl
      split at h
      · cases h; exact hi1
      · rename_i op hcur
        split at h
        · rename_i buf2 enc henc
          cases h
          exact ⟨hi1.each, fun ho => ⟨(hi1.opened ho).one, (hi1.opened ho).none, (hi1.opened ho).hello⟩, hi1.quiet⟩
        · rename_i buf2 enc henc
          have m2 := m1.snoc (.encode c1 op buf buf2 enc _ hcur henc)
          have hfin := encodeToBuffer_finished henc
          split at h
          · cases h
          · rename_i c2 hfn
            unfold Client.finish at hfn
            split at hfn
            · cases hfn
            · rename_i s hs
              have m3 := m2.snoc (.finish _ op (env.loopNow k) s hcur hfin hs trivial)
              have m4 : Moves cfg c c2 := by
                cases hfn
                simp only
                split
                · exact m3.append (.k (.sent ..))
                · exact m3
              have hs' : s.log = c1.ops.log ++ [.encoded op.uid op.packet] ∧ s.queued = c1.ops.queued := by
                obtain ⟨_, ⟨_, _, rfl⟩ | ⟨_, rfl⟩⟩ := finish_cases hs <;> exact ⟨rfl, rfl⟩
              have hc2 : c2.ops = s ∧ c2.ctl.state = c1.ctl.state := by
                cases hfn
                refine ⟨rfl, ?_⟩
                simp only
                split <;> simp
              have hdry : ∀ e ∈ [Effect.encoded op.uid op.packet], dry e = true := by simp [dry]
              have hb : begun (recent c2.ops.log) = begun (recent c1.ops.log) := by
                rw [hc2.1, hs'.1, dry_begun hdry]
              have hqq : c2.ops.queued = c1.ops.queued := by rw [hc2.1, hs'.2]
              have hpp : partings c2 = partings c1 := by unfold partings; rw [hb, hqq]
              have hi2 : PlaceInv c2 := by
                refine ⟨?_, fun ho => ?_, ?_⟩
                · rw [hc2.1, hs'.1]; exact placed_dry hi1.each hdry
                · rw [hc2.2] at ho
                  have ht := hi1.opened ho
                  exact ⟨by rw [hpp]; exact ht.one, by rw [hpp, hc2.2]; exact ht.none,
                    by rw [hb, hqq, hc2.2]; exact ht.hello⟩
                · rw [hc2.2, hb, hqq]; exact hi1.quiet
              split at h
              · rename_i hserve
                exact ih (whole_moves hz m4) (serviceTime_take hserve) hi2 h
              · cases h; exact hi2

theorem serviceOps_place {cfg : Config} {env : Env} {c : Client} {r : Client × Option Error} (hz : WholeInv cfg c)
    (hi : PlaceInv c) (h : c.serviceOps cfg env = .ok r) : PlaceInv r.1 := by
  unfold Client.serviceOps at h
  split at h
  · cases h; exact hi
  · rename_i hs
    have hs := serviceTime_take (by simpa using hs)
    split at h
    · cases h; exact hi
    · split at h
      · cases h
      · rename_i c1 b e hl
        cases h
        exact serviceLoop_place hz hs hi hl
      · rename_i c1 b hl
        have h1 := serviceLoop_place hz hs hi hl
        simp only at h1
        split at h
        · cases h; exact h1
        · split at h
          · cases h
            exact ⟨h1.each, fun ho => ⟨(h1.opened ho).one, (h1.opened ho).none, (h1.opened ho).hello⟩, h1.quiet⟩
          · cases h
            have hb : begun (recent (c1.ops.log ++ [.wrote b.data])) = begun (recent c1.ops.log) := by
              simp [recent_one, recentOne, begun]
            refine ⟨placed_one h1.each (by intro u p w h; cases h), fun ho => ?_, fun hq => ?_⟩
            · have ht := h1.opened ho
              refine ⟨?_, fun hn => ?_, fun hm => ?_⟩
              · simp only [partings]; rw [hb]; exact ht.one
              · simp only [partings]; rw [hb]; exact ht.none hn
              · simp only; rw [hb]; exact ht.hello hm
            · simp only; rw [hb]; exact h1.quiet hq

theorem afterService_place {r : Client × Option Error} (h : PlaceInv r.1) : PlaceInv (Client.afterService r).1 := by
  unfold Client.afterService
  split
  · exact h
  · exact (still_shutdown ..).place h

theorem place_service {cfg : Config} {env : Env} {c c' : Client} (hw : WholeInv cfg c) (hi : PlaceInv c)
    (h : c.service cfg env = .ok c') : PlaceInv c' := by
  unfold Client.service at h
  split at h
  · rename_i hst
    have hq : c.ctl.state.quiet = true := by rw [hst]; rfl
    split at h
    · cases h; exact (still_toConnecting _ hq).place hi
    · cases h; exact (still_toTerminated hq).place hi
    · cases h; exact hi
  · rename_i hst
    unfold Client.serviceMqttConnect at h
    split at h
    · cases h; exact (still_emitShutdown ..).place hi
    · split at h
      · cases h; exact (still_emitShutdown ..).place hi
      · split at h
        · cases h
        · rename_i r hr
          cases h
          exact afterService_place (serviceOps_place hw hi hr)
  · rename_i hst
    unfold Client.serviceConnected at h
    split at h
    · cases h; exact (still_emitShutdown ..).place hi
    · split at h
      · cases h
        have h1 : Still c { c with ctl := c.ctl.emitFinal .pingTimeout } := Still.ctl (.inl (by simp))
        exact (h1.trans (still_shutdownClean ..)).place hi
      · simp only at h
        split at h
        · cases h
        · rename_i c1 hc1
          have m1 : Moves cfg c (if env.now ≥ c.ctl.nextPing then c.queuePing env.queueNow else c) := by
            split
            · exact .cons (.push c .pingreq (.inl rfl) (by simp [hst]) (by simp [isConnect]))
                (.cons (.pinged _ c.ops.nextUid) (.k (.resetPing ..)))
            · exact .nil _
          have s1 : Still c (if env.now ≥ c.ctl.nextPing then c.queuePing env.queueNow else c) := by
            split
            · exact still_queuePing ..
            · exact .refl _
          have m2 := m1.append (clientCheckTimeouts_moves (g := .any) hc1 trivial)
          have s2 := s1.trans (still_checkTimeouts hc1)
          split at h
          · cases h
          · rename_i r hr
            cases h
            exact afterService_place (serviceOps_place (whole_moves hw m2) (s2.place hi) hr)
  · unfold Client.serviceCleanDisconnect at h
    split at h
    · cases h
    · rename_i r hr
      have h1 := afterService_place (serviceOps_place hw hi hr)
      split at h
      · rename_i c1 hc1
        cases h
        rw [hc1] at h1
        exact h1
      · rename_i c1 hc1
        rw [hc1] at h1
        exact (still_checkTimeouts h).place h1
  · rename_i hst
    have hq : c.ctl.state.quiet = true := by rw [hst]; rfl
    split at h
    · cases h; exact (still_toStopped hq).place hi
    · split at h
      · cases h; exact (still_toConnecting _ hq).place hi
      · cases h; exact hi
  · cases h; exact hi

theorem place_step {cfg : Config} {c c' : Client} {e : Event} (hw : WholeInv cfg c) (hi : PlaceInv c)
    (he : Enabled c e) (h : step cfg c e = .ok c') : PlaceInv c' := by
  cases e with
  | submit p t x => cases h; exact (still_submit cfg c t x he.1).place hi
  | setDesired d v => cases h; exact (still_setDesired ..).place hi
  | service env => exact place_service hw hi h
  | setup err now => exact place_setup hi h
  | shutdown e => cases h; exact place_shutdownFinal _ hi.each
  | writeComplete e => cases h; exact (still_writeComplete ..).place hi
  | packet p a now =>
    simp only [step] at h
    unfold Client.onPacket at h
    split at h
    · rename_i hst
      split at h
      · exact place_onConnack hw.size.safe.inv.live hi hst h
      · cases h; exact (still_shutdownClean ..).place hi
    · exact (still_onPacketConnected h).place hi
    · exact (still_onPacketConnected h).place hi
    · cases h; exact hi
  | readFailed e => cases h; exact (still_readFailed ..).place hi
  | invoke ctl => cases h; exact (still_invoke ..).place hi
  | resetConnection => cases h; exact (still_resetConnection ..).place hi

theorem reachable_place {cfg : Config} {c : Client} (h : Reachable cfg c) : PlaceInv c := by
  induction h with
  | new => exact ⟨Each.nil _, by simp [Client.new, State.open], fun _ => ⟨rfl, rfl⟩⟩
  | step hr he hs ih => exact place_step ⟨reachable_size hr, reachable_event hr⟩ ih he hs

/-! ## Whole connections -/

/-- A packet among those begun, in the history. -/
theorem begun_split {p : Outgoing} (a : List Effect) : ∀ {l r : List Outgoing}, begun (recent a) = l ++ p :: r →
    ∃ a1 u w a2 y, a = a1 ++ .started u p w :: a2 ∧ begun (recent a1) = l ∧ recent a = recent a1 ++ .started u p w :: y := by
  refine snoc_rec (P := fun a => ∀ {l r : List Outgoing}, begun (recent a) = l ++ p :: r →
    ∃ a1 u w a2 y, a = a1 ++ .started u p w :: a2 ∧ begun (recent a1) = l ∧
      recent a = recent a1 ++ .started u p w :: y) ?_ ?_ a
  · intro l r h
    have : (begun (recent [])).length = 0 := rfl
    rw [h] at this
    simp at this
  · intro a x ih l r h
    rw [recent_one] at h
    have same : recentOne (recent a) x = recent a ++ [x] → begun [x] = [] →
        ∃ a1 u w a2 y, a ++ [x] = a1 ++ .started u p w :: a2 ∧ begun (recent a1) = l ∧
          recent (a ++ [x]) = recent a1 ++ .started u p w :: y := by
      intro h1 h2
      rw [h1, begun_append, h2, List.append_nil] at h
      obtain ⟨a1, u, w, a2, y, g1, g2, g3⟩ := ih h
      refine ⟨a1, u, w, a2 ++ [x], y ++ [x], by rw [g1]; simp, g2, ?_⟩
      rw [recent_one, h1, g3]
      simp
    cases x with
    | disconnected =>
      have : (begun (recentOne (recent a) .disconnected)).length = 0 := rfl
      rw [h] at this
      simp at this
    | started u q w =>
      have h : begun (recent a) ++ [q] = l ++ p :: r := by
        rw [← h]
        simp [recentOne, begun]
      rcases List.eq_nil_or_concat r with rfl | ⟨r', z, rfl⟩
      · obtain ⟨h1, h2⟩ := List.append_inj' h rfl
        cases h2
        exact ⟨a, u, w, [], [], rfl, h1, by rw [recent_one]; rfl⟩
      · have h' : begun (recent a) ++ [q] = (l ++ p :: r') ++ [z] := by rw [h]; simp
        obtain ⟨h1, h2⟩ := List.append_inj' h' rfl
        obtain ⟨a1, u', w', a2, y, g1, g2, g3⟩ := ih h1
        refine ⟨a1, u', w', a2 ++ [.started u q w], y ++ [.started u q w], by rw [g1]; simp, g2, ?_⟩
        rw [recent_one, recentOne, g3]
        simp
        simp
    | _ => exact same rfl rfl

/-- A connection in use has been accepted. -/
theorem live_accepted (a : List Effect) : live a = true → ∃ st, .connected st ∈ recent a := by
  refine snoc_rec (P := fun a => live a = true → ∃ st, .connected st ∈ recent a) ?_ ?_ a
  · intro h; cases h
  · intro a x ih h
    rw [live_snoc] at h
    rw [recent_one]
    cases x with
    | disconnected => cases h
    | connected st => exact ⟨st, by simp [recentOne]⟩
    | _ =>
      obtain ⟨st, hst⟩ := ih h
      exact ⟨st, by simp [recentOne, hst]⟩

end Mqtt.Client5
