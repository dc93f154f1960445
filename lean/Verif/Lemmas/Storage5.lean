import Verif.Spec.Storage5

/-! Steps that copy into a buffer, one after the other. -/
namespace Mqtt.Storage5
open Mqtt.V5

theorem read_len {mem : Memory} {c : Cursor} {bs : Bytes} (h : mem.read c = some bs) : bs.length = c.len := by
  unfold Memory.read at h
  split at h
  · rename_i h0
    injection h with h; subst h; simp [h0]
  · cases hb : mem c.block with
    | none => rw [hb] at h; cases h
    | some b =>
      rw [hb] at h
      simp only [Option.bind_some] at h
      split at h
      · injection h with h; subst h
        rw [List.length_take, List.length_drop]; omega
      · cases h

/-- A block whose beginning has been written. -/
def Begins (mem : Memory) (b : Buf) : Prop := ∃ more, mem b.block = some (b.bytes ++ more)

theorem Buf.Kept.begins {b : Buf} {mem : Memory} (h : b.Kept mem) : Begins mem b := ⟨[], by rw [List.append_nil]; exact h⟩

/-- If there is room for `n` bytes, `x` appends `n` bytes, and what it returns says `v` in every memory with `P` that begins
with what has been written. -/
def Stores {α β : Type} (mem : Memory) (P : Memory → Prop) (x : Store α) (rd : Memory → α → Option β) (v : β) (n : Nat) :
    Prop :=
  ∀ b : Buf, b.bytes.length + n ≤ b.cap → ∃ a ext, x mem b = .ok (a, { b with bytes := b.bytes ++ ext }) ∧ ext.length = n ∧
    ∀ mem', P mem' → Begins mem' { b with bytes := b.bytes ++ ext } → rd mem' a = some v

theorem stores_pure {α β : Type} {mem : Memory} {P : Memory → Prop} {a : α} {rd : Memory → α → Option β} {v : β}
    (h : ∀ mem', P mem' → rd mem' a = some v) : Stores mem P (pure a) rd v 0 := by
  intro b _
  exact ⟨a, [], by rw [List.append_nil]; rfl, rfl, fun mem' hP _ => h mem' hP⟩

theorem stores_bind {α β γ δ : Type} {mem : Memory} {P : Memory → Prop} {x : Store α} {rd : Memory → α → Option β} {v : β}
    {n : Nat} {f : α → Store γ} {rd' : Memory → γ → Option δ} {w : δ} {m : Nat} (hx : Stores mem P x rd v n)
    (hf : ∀ a, Stores mem (fun mem' => P mem' ∧ rd mem' a = some v) (f a) rd' w m) :
    Stores mem P (x >>= f) rd' w (n + m) := by
  intro b hb
  obtain ⟨a, ext, he, hl, hr⟩ := hx b (by omega)
  obtain ⟨c, ext', he', hl', hr'⟩ := hf a { b with bytes := b.bytes ++ ext } (by simp only [List.length_append]; omega)
  refine ⟨c, ext ++ ext', ?_, by rw [List.length_append]; omega, ?_⟩
  · show (match x mem b with | .ok (a, b') => f a mem b' | .error e => .error e) = _
    rw [he]
    simp only
    rw [he', List.append_assoc]
  · intro mem' hP hB
    rw [← List.append_assoc] at hB
    refine hr' mem' ⟨hP, hr mem' hP ?_⟩ hB
    obtain ⟨more, hm⟩ := hB
    exact ⟨ext' ++ more, by rw [hm]; simp only [List.append_assoc]⟩

theorem store_bind {α γ : Type} {mem : Memory} {x : Store α} {f : α → Store γ} {b b' : Buf} {a : α}
    (h : x mem b = .ok (a, b')) : (x >>= f) mem b = f a mem b' := by
  show (match x mem b with | .ok (a, b') => f a mem b' | .error e => .error e) = _
  rw [h]

theorem stores_copy {mem : Memory} {P : Memory → Prop} {c : Cursor} {bs : Bytes} (h : mem.read c = some bs) :
    Stores mem P (copy c) Memory.read bs c.len := by
  have hl := read_len h
  intro b hb
  refine ⟨{ block := b.block, off := b.bytes.length, len := c.len }, bs, ?_, hl, ?_⟩
  · unfold copy
    rw [h]
    simp only
    rw [if_neg (by omega)]
  · intro mem' _ ⟨more, hm⟩
    unfold Memory.read
    split
    · rename_i h0
      have h0 : c.len = 0 := h0
      rw [List.eq_nil_of_length_eq_zero (l := bs) (by omega)]
    · simp only at hm
      simp only [hm, Option.bind_some, List.length_append]
      rw [if_pos (by omega), List.append_assoc, List.drop_left, ← hl, List.take_left]

theorem stores_copyBytes {mem : Memory} {P : Memory → Prop} (bs : Bytes) :
    Stores mem P (copyBytes bs) Memory.read bs bs.length := by
  intro b hb
  refine ⟨{ block := b.block, off := b.bytes.length, len := bs.length }, bs, ?_, rfl, ?_⟩
  · unfold copyBytes
    rw [if_neg (by omega)]
  · intro mem' _ ⟨more, hm⟩
    unfold Memory.read
    split
    · rename_i h0
      have h0 : bs.length = 0 := h0
      rw [List.eq_nil_of_length_eq_zero h0]
    · simp only at hm
      simp only [hm, Option.bind_some, List.length_append]
      rw [if_pos (by omega), List.append_assoc, List.drop_left, List.take_left]

theorem stores_copyOpt {mem : Memory} {P : Memory → Prop} {c : Option Cursor} {v : Option Bytes}
    (h : readOpt mem c = some v) : Stores mem P (copyOpt c) readOpt v (optSize c) := by
  cases c with
  | none =>
    injection h with h; subst h
    exact stores_pure fun _ _ => rfl
  | some c =>
    cases hr : mem.read c with
    | none => simp only [readOpt, hr, Option.map_none] at h; cases h
    | some bs =>
      simp only [readOpt, hr, Option.map_some] at h
      injection h with h; subst h
      refine stores_bind (m := 0) (stores_copy hr) fun a => stores_pure fun mem' h => ?_
      simp only [readOpt, h.2, Option.map_some]

theorem bind_eq_some {α β : Type} {x : Option α} {f : α → Option β} {b : β} (h : (x >>= f) = some b) :
    ∃ a, x = some a ∧ f a = some b := by
  cases x with
  | none => cases h
  | some a => exact ⟨a, rfl, h⟩

theorem stores_copyProps {mem : Memory} {P : Memory → Prop} {ps : List RawProperty} {v : List UserProperty}
    (h : readProps mem ps = some v) : Stores mem P (copyProps ps) readProps v (propsSize ps) := by
  induction ps generalizing v P with
  | nil =>
    injection h with h; subst h
    exact stores_pure fun _ _ => rfl
  | cons p ps ih =>
    unfold readProps at h
    obtain ⟨name, hn, h⟩ := bind_eq_some h
    obtain ⟨value, hv, h⟩ := bind_eq_some h
    obtain ⟨rest, hr, h⟩ := bind_eq_some h
    injection h with h; subst h
    have := stores_bind (P := P) (stores_copy hn) fun a => stores_bind (stores_copy hv) fun b => stores_bind (ih hr) fun c =>
      stores_pure (a := ({ name := a, value := b } : RawProperty) :: c) (rd := readProps)
        (v := { name, value } :: rest) fun mem' ⟨⟨⟨_, ha⟩, hb⟩, hc⟩ => by
          simp only [readProps, ha, hb, hc]; rfl
    rw [show propsSize (p :: ps) = p.name.len + (p.value.len + (propsSize ps + 0)) by simp only [propsSize]; omega]
    exact this

theorem stores_copyFilters {mem : Memory} {P : Memory → Prop} {cs : List Cursor} {v : List Bytes}
    (h : readFilters mem cs = some v) : Stores mem P (copyFilters cs) readFilters v (filtersSize cs) := by
  induction cs generalizing v P with
  | nil =>
    injection h with h; subst h
    exact stores_pure fun _ _ => rfl
  | cons c cs ih =>
    unfold readFilters at h
    obtain ⟨f, hf, h⟩ := bind_eq_some h
    obtain ⟨rest, hr, h⟩ := bind_eq_some h
    injection h with h; subst h
    have := stores_bind (P := P) (stores_copy hf) fun a => stores_bind (ih hr) fun b =>
      stores_pure (a := a :: b) (rd := readFilters) (v := f :: rest) fun mem' ⟨⟨_, ha⟩, hb⟩ => by
          simp only [readFilters, ha, hb]; rfl
    rw [show filtersSize (c :: cs) = c.len + (filtersSize cs + 0) by simp only [filtersSize]; omega]
    exact this

theorem stores_copySubscriptions {mem : Memory} {P : Memory → Prop} {ss : List RawSubscription} {v : List SubscriptionView}
    (h : readSubscriptions mem ss = some v) :
    Stores mem P (copySubscriptions ss) readSubscriptions v (subscriptionsSize ss) := by
  induction ss generalizing v P with
  | nil =>
    injection h with h; subst h
    exact stores_pure fun _ _ => rfl
  | cons s ss ih =>
    unfold readSubscriptions at h
    obtain ⟨f, hf, h⟩ := bind_eq_some h
    obtain ⟨rest, hr, h⟩ := bind_eq_some h
    injection h with h; subst h
    have := stores_bind (P := P) (stores_copy hf) fun a => stores_bind (ih hr) fun b =>
      stores_pure (a := { s with topicFilter := a } :: b) (rd := readSubscriptions)
        (v := {
          topicFilter := f
          qos := s.qos
          noLocal := s.noLocal
          retainAsPublished := s.retainAsPublished
          retainHandling := s.retainHandling } :: rest) fun mem' ⟨⟨_, ha⟩, hb⟩ => by
          simp only [readSubscriptions, ha, hb]; rfl
    rw [show subscriptionsSize (s :: ss) = s.topicFilter.len + (subscriptionsSize ss + 0) by
      simp only [subscriptionsSize]; omega]
    exact this

/-- With a new buffer of that size. -/
theorem Stores.stored {α β : Type} {mem : Memory} {x : Store α} {rd : Memory → α → Option β} {v : β} {n : Nat}
    (h : Stores mem (fun _ => True) x rd v n) (block : Nat) {cap : Nat} (hc : cap = n) :
    Stored rd block v (x mem { block, cap }) := by
  subst hc
  obtain ⟨a, ext, he, hl, hr⟩ := h { block, cap } (by simp)
  refine ⟨a, _, he, rfl, ?_, fun mem' hk => hr mem' trivial hk.begins⟩
  simpa using hl

theorem stores_publish {mem : Memory} {P : Memory → Prop} {v : RawPublish} {w : PublishView} (h : v.read mem = some w) :
    Stores mem P (publishStore v) RawPublish.read w (publishSize v) := by
  unfold RawPublish.read at h
  obtain ⟨f1, h1, h⟩ := bind_eq_some h
  obtain ⟨f2, h2, h⟩ := bind_eq_some h
  obtain ⟨f3, h3, h⟩ := bind_eq_some h
  obtain ⟨f4, h4, h⟩ := bind_eq_some h
  obtain ⟨f5, h5, h⟩ := bind_eq_some h
  obtain ⟨f6, h6, h⟩ := bind_eq_some h
  injection h with h; subst h
  rw [show publishSize v = v.payload.len + (v.topic.len + (optSize v.responseTopic + (optSize v.correlationData +
    (optSize v.contentType + (propsSize v.userProperties + 0))))) by simp only [publishSize]; omega]
  unfold publishStore
  refine stores_bind (stores_copy h1) fun a1 => stores_bind (stores_copy h2) fun a2 => stores_bind (stores_copyOpt h3) fun a3 =>
    stores_bind (stores_copyOpt h4) fun a4 => stores_bind (stores_copyOpt h5) fun a5 =>
    stores_bind (stores_copyProps h6) fun a6 => stores_pure ?_
  rintro mem' ⟨⟨⟨⟨⟨⟨_, g1⟩, g2⟩, g3⟩, g4⟩, g5⟩, g6⟩
  simp only [RawPublish.read, g1, g2, g3, g4, g5, g6]
  rfl

theorem stores_connack {mem : Memory} {P : Memory → Prop} {v : RawConnack} {w : ConnackView} (h : v.read mem = some w) :
    Stores mem P (connackStore v) RawConnack.read w (connackSize v) := by
  unfold RawConnack.read at h
  obtain ⟨f1, h1, h⟩ := bind_eq_some h
  obtain ⟨f2, h2, h⟩ := bind_eq_some h
  obtain ⟨f7, h7, h⟩ := bind_eq_some h
  obtain ⟨f3, h3, h⟩ := bind_eq_some h
  obtain ⟨f4, h4, h⟩ := bind_eq_some h
  obtain ⟨f5, h5, h⟩ := bind_eq_some h
  obtain ⟨f6, h6, h⟩ := bind_eq_some h
  injection h with h; subst h
  rw [show connackSize v = optSize v.assignedClientId + (optSize v.reasonString + (optSize v.responseInformation +
    (optSize v.serverReference + (optSize v.authMethod + (optSize v.authData + (propsSize v.userProperties + 0)))))) by
    simp only [connackSize]; omega]
  unfold connackStore
  refine stores_bind (stores_copyOpt h1) fun a1 => stores_bind (stores_copyOpt h2) fun a2 =>
    stores_bind (stores_copyOpt h3) fun a3 => stores_bind (stores_copyOpt h4) fun a4 => stores_bind (stores_copyOpt h5) fun a5 =>
    stores_bind (stores_copyOpt h6) fun a6 => stores_bind (stores_copyProps h7) fun a7 => stores_pure ?_
  rintro mem' ⟨⟨⟨⟨⟨⟨⟨_, g1⟩, g2⟩, g3⟩, g4⟩, g5⟩, g6⟩, g7⟩
  simp only [RawConnack.read, g1, g2, g3, g4, g5, g6, g7]
  rfl

theorem stores_disconnect {mem : Memory} {P : Memory → Prop} {v : RawDisconnect} {w : DisconnectView}
    (h : v.read mem = some w) : Stores mem P (disconnectStore v) RawDisconnect.read w (disconnectSize v) := by
  unfold RawDisconnect.read at h
  obtain ⟨f1, h1, h⟩ := bind_eq_some h
  obtain ⟨f3, h3, h⟩ := bind_eq_some h
  obtain ⟨f2, h2, h⟩ := bind_eq_some h
  injection h with h; subst h
  rw [show disconnectSize v = optSize v.reasonString + (optSize v.serverReference + (propsSize v.userProperties + 0)) by
    simp only [disconnectSize]; omega]
  unfold disconnectStore
  refine stores_bind (stores_copyOpt h1) fun a1 => stores_bind (stores_copyOpt h2) fun a2 =>
    stores_bind (stores_copyProps h3) fun a3 => stores_pure ?_
  rintro mem' ⟨⟨⟨_, g1⟩, g2⟩, g3⟩
  simp only [RawDisconnect.read, g1, g2, g3]
  rfl

theorem stores_puback {mem : Memory} {P : Memory → Prop} {v : RawPuback} {w : PubackView} (h : v.read mem = some w) :
    Stores mem P (pubackStore v) RawPuback.read w (pubackSize v) := by
  unfold RawPuback.read at h
  obtain ⟨f1, h1, h⟩ := bind_eq_some h
  obtain ⟨f2, h2, h⟩ := bind_eq_some h
  injection h with h; subst h
  rw [show pubackSize v = optSize v.reasonString + (propsSize v.userProperties + 0) by simp only [pubackSize]; omega]
  unfold pubackStore
  refine stores_bind (stores_copyOpt h1) fun a1 => stores_bind (stores_copyProps h2) fun a2 => stores_pure ?_
  rintro mem' ⟨⟨_, g1⟩, g2⟩
  simp only [RawPuback.read, g1, g2]
  rfl

theorem stores_suback {mem : Memory} {P : Memory → Prop} {v : RawSuback} {w : SubackView} (h : v.read mem = some w) :
    Stores mem P (subackStore v) RawSuback.read w (subackSize v) := by
  unfold RawSuback.read at h
  obtain ⟨f1, h1, h⟩ := bind_eq_some h
  obtain ⟨f2, h2, h⟩ := bind_eq_some h
  injection h with h; subst h
  rw [show subackSize v = optSize v.reasonString + (propsSize v.userProperties + 0) by simp only [subackSize]; omega]
  unfold subackStore
  refine stores_bind (stores_copyOpt h1) fun a1 => stores_bind (stores_copyProps h2) fun a2 => stores_pure ?_
  rintro mem' ⟨⟨_, g1⟩, g2⟩
  simp only [RawSuback.read, g1, g2]
  rfl

theorem stores_subscribe {mem : Memory} {P : Memory → Prop} {v : RawSubscribe} {w : SubscribeView}
    (h : v.read mem = some w) : Stores mem P (subscribeStore v) RawSubscribe.read w (subscribeSize v) := by
  unfold RawSubscribe.read at h
  obtain ⟨f1, h1, h⟩ := bind_eq_some h
  obtain ⟨f2, h2, h⟩ := bind_eq_some h
  injection h with h; subst h
  rw [show subscribeSize v = subscriptionsSize v.subscriptions + (propsSize v.userProperties + 0) by
    simp only [subscribeSize]; omega]
  unfold subscribeStore
  refine stores_bind (stores_copySubscriptions h1) fun a1 => stores_bind (stores_copyProps h2) fun a2 => stores_pure ?_
  rintro mem' ⟨⟨_, g1⟩, g2⟩
  simp only [RawSubscribe.read, g1, g2]
  rfl

theorem stores_unsubscribe {mem : Memory} {P : Memory → Prop} {v : RawUnsubscribe} {w : UnsubscribeView}
    (h : v.read mem = some w) :
    Stores mem P (unsubscribeStore v) RawUnsubscribe.read { w with packetId := 0 } (unsubscribeSize v) := by
  unfold RawUnsubscribe.read at h
  obtain ⟨f1, h1, h⟩ := bind_eq_some h
  obtain ⟨f2, h2, h⟩ := bind_eq_some h
  injection h with h; subst h
  rw [show unsubscribeSize v = filtersSize v.topicFilters + (propsSize v.userProperties + 0) by
    simp only [unsubscribeSize]; omega]
  unfold unsubscribeStore
  refine stores_bind (stores_copyFilters h1) fun a1 => stores_bind (stores_copyProps h2) fun a2 => stores_pure ?_
  rintro mem' ⟨⟨_, g1⟩, g2⟩
  simp only [RawUnsubscribe.read, g1, g2]
  rfl

/-- The user name that is stored. -/
theorem stores_username {mem : Memory} {P : Memory → Prop} {platform u : Bytes} {metrics : Option (Option Metrics.Metrics)}
    {c : Option Cursor} {name : Bytes} (hh : hasUsername metrics c = true)
    (h : withMetrics platform metrics u true = .ok name) :
    Stores mem P (usernameStore platform metrics u c) readOpt (some name) name.length := by
  unfold usernameStore
  rw [if_pos hh, h]
  exact stores_bind (m := 0) (stores_copyBytes name) fun a => stores_pure fun mem' h => by
    simp only [readOpt, h.2, Option.map_some]

theorem stores_connect {mem : Memory} {P : Memory → Prop} {platform u : Bytes} {metrics : Option (Option Metrics.Metrics)}
    {v : RawConnect} {w : ConnectView} (h : v.read mem = some w) {name : Option Bytes} {k : Nat}
    (hu : ∀ P, Stores mem P (usernameStore platform metrics u v.username) readOpt name k)
    {will : Option RawPublish} (hP : ∀ mem', P mem' → readWill mem' will = some w.will) :
    Stores mem P (connectStore platform metrics u v will) RawConnect.read { w with username := name }
      (v.clientId.len + k + optSize v.password + propsSize v.userProperties + optSize v.authMethod + optSize v.authData) := by
  unfold RawConnect.read at h
  obtain ⟨f1, h1, h⟩ := bind_eq_some h
  obtain ⟨f2, h2, h⟩ := bind_eq_some h
  obtain ⟨f3, h3, h⟩ := bind_eq_some h
  obtain ⟨f4, h4, h⟩ := bind_eq_some h
  obtain ⟨f5, h5, h⟩ := bind_eq_some h
  obtain ⟨f6, h6, h⟩ := bind_eq_some h
  obtain ⟨f7, h7, h⟩ := bind_eq_some h
  injection h with h; subst h
  rw [show v.clientId.len + k + optSize v.password + propsSize v.userProperties + optSize v.authMethod + optSize v.authData =
    v.clientId.len + (k + (optSize v.password + (propsSize v.userProperties + (optSize v.authMethod +
    (optSize v.authData + 0))))) by omega]
  unfold connectStore
  refine stores_bind (stores_copy h1) fun a1 => stores_bind (hu _) fun a2 => stores_bind (stores_copyOpt h3) fun a3 =>
    stores_bind (stores_copyProps h5) fun a4 => stores_bind (stores_copyOpt h6) fun a5 =>
    stores_bind (stores_copyOpt h7) fun a6 => stores_pure ?_
  rintro mem' ⟨⟨⟨⟨⟨⟨hp, g1⟩, g2⟩, g3⟩, g4⟩, g5⟩, g6⟩
  have hw := hP mem' hp
  simp only [RawConnect.read, g1, g2, g3, g4, g5, g6, hw]
  rfl

theorem willStore_stored {mem : Memory} {block : Nat} {w : Option RawPublish} {v : Option PublishView}
    (h : readWill mem w = some v) : ∃ r, willStore mem block w = .ok r ∧
      (r = none ↔ v = none) ∧ (∀ x ∈ r, x.2.block = block ∧ x.2.bytes.length = x.2.cap) ∧
      ∀ mem', (∀ x ∈ r.map (·.2), Buf.Kept x mem') → readWill mem' (r.map (·.1)) = some v := by
  cases w with
  | none =>
    injection h with h; subst h
    refine ⟨none, rfl, by simp, ?_, fun mem' _ => rfl⟩
    intro x hx; cases hx
  | some w =>
    cases hr : w.read mem with
    | none => simp only [readWill, hr, Option.map_none] at h; cases h
    | some p =>
      simp only [readWill, hr, Option.map_some] at h
      injection h with h; subst h
      obtain ⟨a, b, he, hb, hf, hk⟩ := (stores_publish (P := fun _ => True) hr).stored block rfl
      refine ⟨some (a, b), ?_, by simp, ?_, ?_⟩
      · simp only [willStore, publishStorage]
        rw [he]; rfl
      · intro x hx
        cases Option.mem_some.1 hx
        exact ⟨hb, hf⟩
      · intro mem' hx
        simp only [Option.map_some, readWill]
        rw [hk mem' (hx b (by simp))]
        rfl

/-- What there is to be stored of a CONNECT. -/
theorem connect_parts {mem : Memory} {v : RawConnect} {w : ConnectView} (h : v.read mem = some w) :
    readOpt mem v.username = some w.username ∧ readWill mem v.will = some w.will := by
  unfold RawConnect.read at h
  obtain ⟨f1, h1, h⟩ := bind_eq_some h
  obtain ⟨f2, h2, h⟩ := bind_eq_some h
  obtain ⟨f3, h3, h⟩ := bind_eq_some h
  obtain ⟨f4, h4, h⟩ := bind_eq_some h
  obtain ⟨f5, h5, h⟩ := bind_eq_some h
  obtain ⟨f6, h6, h⟩ := bind_eq_some h
  obtain ⟨f7, h7, h⟩ := bind_eq_some h
  injection h with h; subst h
  exact ⟨h2, h4⟩

theorem usernameBytes_eq {mem : Memory} {c : Option Cursor} {v : Option Bytes} (h : readOpt mem c = some v) :
    usernameBytes mem c = some (v.getD []) ∧ (c.any (·.len > 0)) = v.any (fun s => s.length > 0) := by
  cases c with
  | none => injection h with h; subst h; exact ⟨rfl, rfl⟩
  | some c =>
    cases hr : mem.read c with
    | none => simp only [readOpt, hr, Option.map_none] at h; cases h
    | some bs =>
      simp only [readOpt, hr, Option.map_some] at h
      injection h with h; subst h
      refine ⟨hr, ?_⟩
      simp only [Option.any_some, read_len hr]

end Mqtt.Storage5
