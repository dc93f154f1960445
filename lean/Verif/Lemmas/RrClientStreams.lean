import Verif.Lemmas.RrClientPublish

/-! Streams of the request-response client: where they are listed and whether they have been halted. -/
namespace Mqtt.RrClient

open Mqtt.Rr (Kind Status StatusType Action Acquired Manager matchesType)

/-- An entry that neither opens nor halts a stream. -/
def plainEntry : Trace → Bool
  | .opened .. | .status _ (.halted _) => false
  | _ => true

/-- Streams listed for a filter. -/
def listOf (c : Client) (f : Bytes) : List Nat := ((if hasWildcard f then c.wildcards else c.streams).get f).getD []

/-- The account of a stream. -/
structure StrOp (c : Client) (id : Nat) (op : Op) (f : Bytes) : Prop where
  opened : ∀ g, Trace.opened id g ∈ c.log ↔ g = f
  state : op.state = .terminal ↔ halted c.log id
  alive : op.state ≠ .pendingDestroy
  after : op.state = .terminal → op.tracked = true ∧ id ∉ c.queue
  placed : op.inTables = false → op.tracked = true → id ∈ c.queue ∨ op.state = .terminal
  listed : op.inTables = true → id ∈ listOf c f

/-- The account of all streams but some. -/
structure Str (skip : Nat → Prop) (c : Client) : Prop where
  wild : c.wildcards.Nodup
  plain : ∀ e ∈ c.streams, hasWildcard e.1 = false ∧ e.2.Nodup
  lists : ∀ e ∈ c.wildcards, hasWildcard e.1 = true ∧ e.2.Nodup
  ops : ∀ id op f, ¬ skip id → c.ops.get id = some op → op.body = .stream f → StrOp c id op f
  fresh : ∀ id, c.nextId ≤ id → ¬ halted c.log id ∧ ∀ f, Trace.opened id f ∉ c.log
  kept : ∀ id f, Trace.opened id f ∈ c.log → Trace.closedDown id ∈ c.log ∨ ∃ op, c.ops.get id = some op ∧ op.body = .stream f
  legal : ∀ id f, Trace.opened id f ∈ c.log → isValidTopicFilter f = true

/-- Nothing happens to streams. -/
structure Same (skip : Nat → Prop) (c c' : Client) : Prop where
  streams : c'.streams = c.streams
  wildcards : c'.wildcards = c.wildcards
  queue : c'.queue = c.queue
  phase : c'.phase = c.phase
  nextId : c.nextId ≤ c'.nextId
  log : ∃ new, c'.log = c.log ++ new ∧ ∀ e ∈ new, plainEntry e = true
  ops : ∀ id op' f, ¬ skip id → c'.ops.get id = some op' → op'.body = .stream f →
    ∃ op, c.ops.get id = some op ∧ op.body = .stream f ∧ op'.state = op.state ∧ op'.inTables = op.inTables ∧
      op'.tracked = op.tracked
  kept : ∀ id op f, c.ops.get id = some op → op.body = .stream f → ∃ op', c'.ops.get id = some op' ∧ op'.body = .stream f

variable {skip : Nat → Prop}

theorem halted_append {log new : List Trace} (h : ∀ e ∈ new, plainEntry e = true) (id : Nat) :
    halted (log ++ new) id ↔ halted log id := by
  unfold halted
  constructor
  · rintro ⟨e, he⟩
    rcases List.mem_append.1 he with he | he
    · exact ⟨e, he⟩
    · cases h _ he
  · rintro ⟨e, he⟩
    exact ⟨e, List.mem_append.2 (.inl he)⟩

theorem opened_append {log new : List Trace} (h : ∀ e ∈ new, plainEntry e = true) (id : Nat) (f : Bytes) :
    Trace.opened id f ∈ log ++ new ↔ Trace.opened id f ∈ log := by
  constructor
  · intro he
    rcases List.mem_append.1 he with he | he
    · exact he
    · cases h _ he
  · exact fun he => List.mem_append.2 (.inl he)

theorem Same.refl (c : Client) : Same skip c c :=
  ⟨rfl, rfl, rfl, rfl, Nat.le_refl _, ⟨[], by simp, by simp⟩, fun _ op _ _ h h' => ⟨op, h, h', rfl, rfl, rfl⟩,
    fun _ op _ h h' => ⟨op, h, h'⟩⟩

theorem Same.trans {a b c : Client} (h : Same skip a b) (h' : Same skip b c) : Same skip a c := by
  refine ⟨h'.streams.trans h.streams, h'.wildcards.trans h.wildcards, h'.queue.trans h.queue, h'.phase.trans h.phase,
    Nat.le_trans h.nextId h'.nextId, ?_, ?_, ?_⟩
  · obtain ⟨n1, e1, p1⟩ := h.log
    obtain ⟨n2, e2, p2⟩ := h'.log
    refine ⟨n1 ++ n2, by rw [e2, e1, List.append_assoc], ?_⟩
    intro e he
    rcases List.mem_append.1 he with he | he
    · exact p1 e he
    · exact p2 e he
  · intro id op' f hk hg hb
    obtain ⟨o1, a1, a2, a3, a4, a5⟩ := h'.ops id op' f hk hg hb
    obtain ⟨o2, b1, b2, b3, b4, b5⟩ := h.ops id o1 f hk a1 a2
    exact ⟨o2, b1, b2, a3.trans b3, a4.trans b4, a5.trans b5⟩
  · intro id op f hg hb
    obtain ⟨o1, a1, a2⟩ := h.kept id op f hg hb
    exact h'.kept id o1 f a1 a2

theorem Same.listOf {c c' : Client} (h : Same skip c c') (f : Bytes) : listOf c' f = listOf c f := by
  unfold RrClient.listOf
  rw [h.streams, h.wildcards]

theorem Str.same {c c' : Client} (h : Str skip c) (hs : Same skip c c') : Str skip c' := by
  obtain ⟨new, e, hp⟩ := hs.log
  refine ⟨by rw [hs.wildcards]; exact h.wild, by rw [hs.streams]; exact h.plain, by rw [hs.wildcards]; exact h.lists, ?_, ?_, ?_, ?_⟩
  · intro id op' f hk hg hb
    obtain ⟨op, a1, a2, a3, a4, a5⟩ := hs.ops id op' f hk hg hb
    obtain ⟨b1, b2, b3, b4, b5, b6⟩ := h.ops id op f hk a1 a2
    refine ⟨?_, ?_, ?_, ?_, ?_, ?_⟩
    · intro g; rw [e, opened_append hp]; exact b1 g
    · rw [a3, e, halted_append hp]; exact b2
    · rw [a3]; exact b3
    · rw [a3, a5, hs.queue]; exact b4
    · rw [a3, a4, a5, hs.queue]; exact b5
    · rw [a4, hs.listOf]; exact b6
  · intro id hn
    rw [e, halted_append hp]
    simp only [opened_append hp]
    exact h.fresh id (Nat.le_trans hs.nextId hn)
  · intro id f ho
    rw [e, opened_append hp] at ho
    rcases h.kept id f ho with hx | ⟨op, o1, o2⟩
    · exact .inl (by rw [e]; exact List.mem_append.2 (.inl hx))
    · exact .inr (hs.kept id op f o1 o2)
  · intro id f ho
    rw [e, opened_append hp] at ho
    exact h.legal id f ho

/-- Fields streams do not depend on change. -/
theorem Same.env {c c' : Client} {new : List Trace} (ho : c'.ops = c.ops) (hs : c'.streams = c.streams)
    (hw : c'.wildcards = c.wildcards) (hq : c'.queue = c.queue) (hp : c'.phase = c.phase) (hn : c'.nextId = c.nextId)
    (hl : c'.log = c.log ++ new) (h : ∀ e ∈ new, plainEntry e = true) : Same skip c c' :=
  ⟨hs, hw, hq, hp, Nat.le_of_eq hn.symm, ⟨new, hl, h⟩, by
    rw [ho]; exact fun _ op _ _ h h' => ⟨op, h, h', rfl, rfl, rfl⟩, by
    rw [ho]; exact fun _ op _ h h' => ⟨op, h, h'⟩⟩

/-- An operation changes that is no stream, is left out, or changes in other respects. -/
theorem Same.set {c c' : Client} {new : List Trace} {id : Nat} {op op' : Op} (hg : c.ops.get id = some op)
    (ho : c'.ops = c.ops.set id op') (hs : c'.streams = c.streams)
    (hw : c'.wildcards = c.wildcards) (hq : c'.queue = c.queue) (hp : c'.phase = c.phase) (hn : c'.nextId = c.nextId)
    (hl : c'.log = c.log ++ new) (h : ∀ e ∈ new, plainEntry e = true)
    (hbody : op'.body = op.body) (hop : (∃ r, op'.body = .request r) ∨ skip id ∨ (op'.body = op.body ∧ op'.state = op.state ∧
      op'.inTables = op.inTables ∧ op'.tracked = op.tracked)) : Same skip c c' := by
  refine ⟨hs, hw, hq, hp, Nat.le_of_eq hn.symm, ⟨new, hl, h⟩, ?_, ?_⟩
  case refine_2 =>
    intro j o f hgo hb
    rw [ho, AMap.get_set]
    by_cases e : j = id
    · subst e
      rw [hg] at hgo
      cases hgo
      exact ⟨op', if_pos rfl, hbody.trans hb⟩
    · exact ⟨o, by rw [if_neg e]; exact hgo, hb⟩
  intro j o f hk hgo hb
  rw [ho, AMap.get_set] at hgo
  split at hgo
  · rename_i e
    subst e
    cases hgo
    rcases hop with ⟨r, h1⟩ | h1 | ⟨h1, h2, h3, h4⟩
    · rw [h1] at hb; cases hb
    · exact absurd h1 hk
    · exact ⟨op, hg, by rw [← h1]; exact hb, h2, h3, h4⟩
  · exact ⟨o, hgo, hb, rfl, rfl, rfl⟩

theorem releaseOp_same {c c' : Client} {id : Nat} (h : c.releaseOp id = .ok c') : Same skip c c' := by
  unfold Client.releaseOp at h
  split at h
  · cases h
  · rename_i op hg
    simp only [Except.ok.injEq] at h
    rw [← h]
    split
    · exact .set (new := []) hg rfl rfl rfl rfl rfl rfl (by simp) (by simp) rfl (.inr (.inr ⟨rfl, rfl, rfl, rfl⟩))
    · exact .set (new := []) hg rfl rfl rfl rfl rfl rfl (by simp) (by simp) rfl (.inr (.inr ⟨rfl, rfl, rfl, rfl⟩))

theorem failRequest_same {c c' : Client} {id : Nat} {e : Failure} (h : c.failRequest id e = .ok c') : Same skip c c' := by
  unfold Client.failRequest at h
  split at h
  · cases h
  · rename_i op hg
    split at h
    · cases h
    · rename_i r hb
      split at h
      · cases h; exact .refl _
      · refine Same.trans ?_ (releaseOp_same h)
        exact .set hg rfl rfl rfl rfl rfl rfl rfl (by simp [plainEntry]) rfl (.inl ⟨r, hb⟩)

theorem publishDone_same {c c' : Client} {id : Nat} {ok : Bool} (h : c.publishDone id ok = .ok c') : Same skip c c' := by
  unfold Client.publishDone at h
  have h0 : Same skip c { c with publishes := c.publishes.erase id } :=
    .env (new := []) rfl rfl rfl rfl rfl rfl (by simp) (by simp)
  simp only at h
  split at h
  · cases h; exact h0
  · split at h
    · cases h; exact h0
    · split at h
      · exact h0.trans (failRequest_same h)
      · cases h; exact h0

theorem makeRequest_same {c c' : Client} {env : Env} {id : Nat} (h : c.makeRequest env id = .ok c') : Same skip c c' := by
  unfold Client.makeRequest at h
  split at h
  · cases h
  · split at h
    · cases h
    · split at h
      · cases h; exact .env rfl rfl rfl rfl rfl rfl rfl (by simp [plainEntry])
      · exact failRequest_same h

theorem requestStatus_same {c c' : Client} {env : Env} {id : Nat} {t : StatusType}
    (hs : ∀ op, c.ops.get id = some op → ∃ r, op.body = .request r)
    (h : c.requestStatus env id t = .ok c') : Same skip c c' := by
  unfold Client.requestStatus at h
  split at h
  · cases h
  · rename_i op hg
    split at h
    · exact failRequest_same h
    · exact failRequest_same h
    · split at h
      · split at h
        · refine Same.trans ?_ (makeRequest_same h)
          exact .set (new := []) hg rfl rfl rfl rfl rfl rfl (by simp) (by simp) rfl (.inl (hs op hg))
        · cases h
          exact .set (new := []) hg rfl rfl rfl rfl rfl rfl (by simp) (by simp) rfl (.inl (hs op hg))
      · cases h; exact .refl _
    · cases h

theorem deliver_same {c c' : Client} {msg : Message} {ids : List Nat} (h : c.deliver msg ids = .ok c') : Same skip c c' := by
  unfold Client.deliver at h
  induction ids generalizing c with
  | nil => cases h; exact .refl _
  | cons i is ih =>
    unfold each at h
    split at h
    · cases h
    · rename_i c1 h1
      refine Same.trans ?_ (ih h)
      unfold Client.deliverOne at h1
      split at h1
      · cases h1
      · split at h1
        · cases h1; exact .refl _
        · split at h1
          · cases h1; exact .refl _
          · cases h1; exact .env rfl rfl rfl rfl rfl rfl rfl (by simp [plainEntry])

theorem deliverWildcards_same {m : AMap Bytes (List Nat)} {c c' : Client} {msg : Message}
    (h : Client.deliverWildcards msg c m = .ok c') : Same skip c c' := by
  induction m generalizing c with
  | nil => cases h; exact .refl _
  | cons x m ih =>
    obtain ⟨f, ids⟩ := x
    unfold Client.deliverWildcards at h
    split at h
    · split at h
      · cases h
      · rename_i c1 h1
        exact (deliver_same h1).trans (ih h)
    · exact ih h

theorem respond_same {c c' : Client} {t : Bytes} {msg : Message} (h : c.respond t msg = .ok c') : Same skip c c' := by
  unfold Client.respond at h
  split at h
  · cases h; exact .refl _
  · split at h
    · cases h
    · rename_i op hg
      split at h
      · cases h
      · rename_i r hb
        split at h
        · cases h; exact .refl _
        · refine Same.trans ?_ (releaseOp_same h)
          exact .set hg rfl rfl rfl rfl rfl rfl rfl (by simp [plainEntry]) rfl (.inl ⟨r, hb⟩)

theorem onPublish_same {cfg : Config} {c c' : Client} {msg : Message} (h : c.onPublish cfg msg = .ok c') :
    Same skip c c' := by
  unfold Client.onPublish at h
  split at h
  · cases h; exact .refl _
  · split at h
    · cases h
    · rename_i c1 h1
      have h1 : Same skip c c1 := by
        unfold Client.deliverExact at h1
        split at h1
        · cases h1; exact .refl _
        · exact deliver_same h1
      split at h
      · cases h
      · rename_i c2 h2
        have h2 := h1.trans (deliverWildcards_same h2)
        split at h
        · cases h; exact h2
        · unfold Client.applyResponse at h
          split at h
          · cases h; exact h2
          · exact h2.trans (respond_same h)

theorem wake_same (c : Client) (now : Nat) : Same skip c (c.wake now) := by
  rw [wake_eq]
  exact .env (new := []) rfl rfl rfl rfl rfl rfl (by simp) (by simp)

theorem absorb_same {c c' : Client} {m : Manager} (h : c.absorb m = .ok c') : Same skip c c' := by
  unfold Client.absorb at h
  simp only at h
  split at h
  · cases h
  · cases h
    exact .env (new := []) rfl rfl rfl rfl rfl rfl (by simp) (by simp)

theorem manage_same {c c' : Client} {m : Except Rr.Fault Manager} (h : c.manage m = .ok c') : Same skip c c' := by
  unfold Client.manage at h
  split at h
  · cases h
  · exact absorb_same h

theorem activate_same {c c' : Client} {id : Nat} (h : c.activate id = .ok c') : Same skip c c' := by
  unfold Client.activate at h
  split at h
  · cases h
  · rename_i op hg
    split at h
    · cases h; exact .refl _
    · cases h
      exact .set (new := []) hg rfl rfl rfl rfl rfl rfl (by simp) (by simp) rfl (.inr (.inr ⟨rfl, rfl, rfl, rfl⟩))

theorem close_same {c c' : Client} {id : Nat} (h : c.close id = .ok c') : Same skip c c' := by
  unfold Client.close at h
  split at h
  · cases h
  · rename_i op hg
    refine Same.trans ?_ (releaseOp_same h)
    exact .set hg rfl rfl rfl rfl rfl rfl rfl (by simp [plainEntry]) rfl (.inr (.inr ⟨rfl, rfl, rfl, rfl⟩))

theorem submitRequest_same {cfg : Config} (c : Client) (hnew : c.ops.get c.nextId = none) (now : Nat) (r : Request) :
    Same skip c (c.submitRequest cfg now r) := by
  unfold Client.submitRequest
  split
  · refine ⟨rfl, rfl, rfl, rfl, Nat.le_succ _, ⟨_, rfl, by simp [plainEntry]⟩, ?_, ?_⟩
    case refine_2 =>
      intro id op f hg hb
      refine ⟨op, ?_, hb⟩
      rw [AMap.get_set, if_neg]
      · exact hg
      · rintro rfl
        exact absurd hg (by rw [hnew]; simp)
    intro id op f _ hg hb
    simp only at hg
    rw [AMap.get_set] at hg
    split at hg
    · cases hg; cases hb
    · exact ⟨op, hg, hb, rfl, rfl, rfl⟩
  · exact .refl _

theorem Str.but {c : Client} (h : Str (fun _ => False) c) : Str skip c :=
  ⟨h.wild, h.plain, h.lists, fun id op f _ => h.ops id op f (fun x => x), h.fresh, h.kept, h.legal⟩

theorem Str.join {c : Client} {id : Nat} (h : Str (· = id) c)
    (hi : ∀ op f, c.ops.get id = some op → op.body = .stream f → StrOp c id op f) : Str (fun _ => False) c := by
  refine ⟨h.wild, h.plain, h.lists, ?_, h.fresh, h.kept, h.legal⟩
  intro j op f _ hg hb
  by_cases e : j = id
  · subst e; exact hi op f hg hb
  · exact h.ops j op f e hg hb

/-- A stream is halted. -/
theorem halt_str {c c' : Client} {id : Nat} {e : Failure} (hs : Str skip c) {op : Op} {f : Bytes}
    (hg : c.ops.get id = some op) (hb : op.body = .stream f) (ho : ∀ g, Trace.opened id g ∈ c.log ↔ g = f)
    (hst : op.state = .terminal ↔ halted c.log id) (hal : op.state ≠ .pendingDestroy)
    (hl : op.inTables = true → id ∈ listOf c f) (hlt : id < c.nextId)
    (ht : op.tracked = true) (hq : id ∉ c.queue) (h : c.halt id e = .ok c') : Str (fun i => skip i ∧ i ≠ id) c' := by
  unfold Client.halt at h
  rw [hg] at h
  simp only [hb] at h
  split at h
  · rename_i hx
    cases h
    refine ⟨hs.wild, hs.plain, hs.lists, ?_, hs.fresh, hs.kept, hs.legal⟩
    intro j o g hk hgo hbo
    by_cases e : j = id
    · subst e
      rw [hg] at hgo
      cases hgo
      rw [hb] at hbo
      cases hbo
      refine ⟨ho, hst, hal, fun _ => ⟨ht, hq⟩, fun _ _ => .inr ?_, hl⟩
      rcases hx with hx | hx
      · exact absurd hx hal
      · exact hx
    · exact hs.ops j o g (fun hx => hk ⟨hx, e⟩) hgo hbo
  · cases h
    have hh : ∀ j, j ≠ id → (halted (c.log ++ [.status id (.halted e)]) j ↔ halted c.log j) := by
      intro j hne
      simp only [halted, List.mem_append, List.mem_singleton, Trace.status.injEq]
      constructor
      · rintro ⟨x, hx | hx⟩
        · exact ⟨x, hx⟩
        · exact absurd hx.1 hne
      · rintro ⟨x, hx⟩; exact ⟨x, .inl hx⟩
    refine ⟨hs.wild, hs.plain, hs.lists, ?_, ?_, ?_, fun j g hx => hs.legal j g (by simpa using hx)⟩
    · intro j o g hk hgo hbo
      simp only at hgo
      rw [AMap.get_set] at hgo
      split at hgo
      · rename_i e; subst e; cases hgo
        cases hbo
        refine ⟨by simpa using ho, ?_, by simp, fun _ => ⟨ht, hq⟩, fun _ _ => .inr rfl, hl⟩
        exact ⟨fun _ => ⟨e, by simp⟩, fun _ => rfl⟩
      · rename_i hne
        obtain ⟨b1, b2, b3, b4, b5, b6⟩ := hs.ops j o g (fun hx => hk ⟨hx, hne⟩) hgo hbo
        exact ⟨by simpa using b1, b2.trans (hh j hne).symm, b3, b4, b5, b6⟩
    · intro j hn
      have hn : c.nextId ≤ j := hn
      obtain ⟨f1, f2⟩ := hs.fresh j hn
      refine ⟨fun hx => f1 ((hh j (by omega)).1 hx), by simpa using f2⟩
    · intro j g hx
      rcases hs.kept j g (by simpa using hx) with hx | ⟨o, o1, o2⟩
      · exact .inl (by simp [hx])
      · right
        simp only
        rw [AMap.get_set]
        by_cases e : j = id
        · subst e
          rw [hg] at o1
          cases o1
          rw [hb] at o2
          exact ⟨_, if_pos rfl, o2⟩
        · exact ⟨o, by rw [if_neg e]; exact o1, o2⟩

theorem Str.weaken {skip' : Nat → Prop} {c : Client} (h : Str skip c) (hk : ∀ i, skip i → skip' i) : Str skip' c :=
  ⟨h.wild, h.plain, h.lists, fun id op f hn => h.ops id op f (fun hx => hn (hk _ hx)), h.fresh, h.kept, h.legal⟩

/-- A stream that the manager knows is halted. -/
theorem halt_known {c c' : Client} {id : Nat} {e : Failure} (hs : Str (fun _ => False) c) (hk : Known c .stream id) (h : c.halt id e = .ok c') : Str (fun _ => False) c' := by
  cases hg : c.ops.get id with
  | none => unfold Client.halt at h; rw [hg] at h; cases h
  | some op =>
    obtain ⟨k1, k2⟩ := hk.2.2 op hg
    rcases Body.cases op.body with ⟨f, hb⟩ | ⟨r, hb⟩
    · obtain ⟨b1, b2, b3, b4, b5, b6⟩ := hs.ops id op f (fun x => x) hg hb
      exact (halt_str hs hg hb b1 b2 b3 b6 hk.1 k2 hk.2.1 h).weaken (fun _ hx => hx.1)
    · rw [hb] at k1; cases k1

theorem onStatus_str {cfg : Config} {c c' : Client} {s : Status} {env : Env} {now : Nat} (hi : Inv cfg false [.status s] c)
    (h : Str (fun _ => False) c) (hr : c.onStatus env now s = .ok c') : Str (fun _ => False) c' := by
  unfold Client.onStatus at hr
  split at hr
  · cases hr; exact h.same (wake_same ..)
  · cases hr; exact h.same (wake_same ..)
  · rename_i n1 n2
    split at hr
    · cases hr; exact h
    · rename_i op hg
      split at hr
      · rename_i ht
        obtain ⟨k, h1, h2⟩ : ∃ k, matchesType k s.type = true ∧ Known c k s.op := by
          rcases hi.told s (by simp) with hy | hy | hy
          · exact absurd hy n2
          · exact absurd hy n1
          · exact hy
        have hreq : k = .request → ∀ o, c.ops.get s.op = some o → ∃ r, o.body = .request r := by
          intro hk o ho
          subst hk
          have hk := (h2.2.2 o ho).1
          rcases Body.cases o.body with ⟨f, hb⟩ | hb
          · rw [hb] at hk; cases hk
          · exact hb
        have hkr : s.type = .subscribeSuccess ∨ s.type = .subscribeFailure ∨ s.type = .subscriptionEnded → k = .request := by
          intro hx
          rcases hx with hx | hx | hx <;> rw [hx] at h1 <;> simpa [matchesType] using h1
        split at hr
        · rename_i hx; exact h.same (requestStatus_same (hreq (hkr (by simp [hx]))) hr)
        · rename_i hx; exact h.same (requestStatus_same (hreq (hkr (by simp [hx]))) hr)
        · rename_i hx; exact h.same (requestStatus_same (hreq (hkr (by simp [hx]))) hr)
        · rename_i n3 n4 n5
          have hk : k = .stream := by
            cases k with
            | stream => rfl
            | request => cases hx : s.type <;> rw [hx] at h1 n1 n2 n3 n4 n5 <;> simp_all [matchesType]
          subst hk
          unfold Client.streamStatus at hr
          rw [hg] at hr
          simp only at hr
          have hsay : ∀ x : StreamStatus, (∀ e, x ≠ .halted e) → Same (fun _ => False) c { c with log := c.log ++ [.status s.op x] } :=
            fun x hx => .env rfl rfl rfl rfl rfl rfl rfl (by
              intro e he
              simp only [List.mem_singleton] at he
              subst he
              cases x with
              | halted e => exact absurd rfl (hx e)
              | _ => rfl)
          split at hr
          · cases hr
            rcases Body.cases op.body with ⟨f, hb⟩ | ⟨r, hb⟩
            · split
              · rename_i hst
                obtain ⟨b1, b2, b3, b4, b5, b6⟩ := h.ops s.op op f (fun x => x) hg hb
                have hsame : Same (· = s.op) c { c with
                    ops := c.ops.set s.op { op with state := .subscribed }, log := c.log ++ [.status s.op .established] } :=
                  .set hg rfl rfl rfl rfl rfl rfl rfl (by simp [plainEntry]) rfl (.inr (.inl rfl))
                refine (h.but.same hsame).join ?_
                intro o g hgo hbo
                simp only [AMap.get_set_same, Option.some.injEq] at hgo
                subst hgo
                have hbo : op.body = _ := hbo
                rw [hb] at hbo
                cases hbo
                refine ⟨by simpa using b1, ?_, by simp, by simp, ?_, b6⟩
                · simp only [reduceCtorEq, false_iff]
                  rw [halted_append (by simp [plainEntry]), ← b2, hst]
                  simp
                · intro x1 x2
                  rcases b5 x1 x2 with b5 | b5
                  · exact .inl b5
                  · rw [hst] at b5; cases b5
              · refine h.same (.set hg rfl rfl rfl rfl rfl rfl rfl (by simp [plainEntry]) rfl (.inr (.inr ⟨rfl, rfl, rfl, rfl⟩)))
            · have := (h2.2.2 op hg).1
              rw [hb] at this
              cases this
          · cases hr; exact h.same (hsay _ (by simp))
          · exact halt_known h h2 hr
          · cases hr
      · cases hr; exact h

theorem submit_str {cfg : Config} {c c' : Client} {now id : Nat} (hi : Inv cfg false [.submit id] c)
    (h : Str (fun _ => False) c) (hp : c.phase ≠ .shuttingDown) (hr : c.submit now id = .ok c') :
    Str (fun _ => False) c' := by
  unfold Client.submit at hr
  split at hr
  · cases hr
  · rename_i op hg
    rw [if_neg hp] at hr
    simp only at hr
    have htr : op.tracked = false := by
      have hid := hi.ids id
      unfold IdOk at hid
      rw [hg] at hid
      cases ht : op.tracked with
      | false => rfl
      | true => have := hid.2.1 ht; simp at this
    have hin : op.inTables = false := by
      cases hx : op.inTables with
      | false => rfl
      | true => rw [(hi.tables id op hg hx).1] at htr; cases htr
    refine Str.same ?_ ((wake_same _ now).trans (releaseOp_same hr))
    refine ⟨h.wild, h.plain, h.lists, ?_, h.fresh, ?_, h.legal⟩
    case refine_2 =>
      intro j g hx
      rcases h.kept j g hx with hx | ⟨o, o1, o2⟩
      · exact .inl hx
      · right
        simp only
        rw [AMap.get_set]
        by_cases e : j = id
        · subst e
          rw [hg] at o1
          cases o1
          exact ⟨_, if_pos rfl, o2⟩
        · exact ⟨o, by rw [if_neg e]; exact o1, o2⟩
    intro j o f _ hgo hb
    simp only at hgo
    rw [AMap.get_set] at hgo
    split at hgo
    · rename_i e
      subst e
      cases hgo
      obtain ⟨b1, b2, b3, b4, b5, b6⟩ := h.ops j op f (fun x => x) hg hb
      have hnt : op.state ≠ .terminal := by
        intro hx
        have := (b4 hx).1
        rw [htr] at this
        cases this
      refine ⟨b1, ?_, by simp, by simp, fun _ _ => .inl (by simp), fun hx => b6 hx⟩
      simp only [reduceCtorEq, false_iff]
      rw [← b2]
      exact hnt
    · rename_i hne
      obtain ⟨b1, b2, b3, b4, b5, b6⟩ := h.ops j o f (fun x => x) hgo hb
      refine ⟨b1, b2, b3, ?_, ?_, b6⟩
      · intro hx
        refine ⟨(b4 hx).1, ?_⟩
        simp only [List.mem_append, List.mem_singleton, not_or]
        exact ⟨(b4 hx).2, hne⟩
      · intro x1 x2
        rcases b5 x1 x2 with b5 | b5
        · exact .inl (List.mem_append.2 (.inl b5))
        · exact .inr b5

theorem initialize_str {c : Client} {env : Env} (h : Str (fun _ => False) c) : Str (fun _ => False) (c.initialize env) := by
  have key : ∀ c1 : Client, Str (fun _ => False) c1 → Str (fun _ => False) { c1 with log := c1.log ++ [.initialized] } :=
    fun c1 h1 => h1.same (.env rfl rfl rfl rfl rfl rfl rfl (by simp [plainEntry]))
  unfold Client.initialize
  split
  · exact key _ ⟨h.wild, h.plain, h.lists, fun id op f hk hg hb => by
      obtain ⟨b1, b2, b3, b4, b5, b6⟩ := h.ops id op f hk hg hb
      exact ⟨b1, b2, b3, b4, b5, b6⟩, h.fresh, h.kept, h.legal⟩
  · exact key _ h

theorem openStream_str {c : Client} (hnew : c.ops.get c.nextId = none) (h : Str (fun _ => False) c) (f : Bytes) :
    Str (fun _ => False) (c.openStream f) := by
  unfold Client.openStream
  split
  · rename_i hv
    have hh : ∀ j, halted (c.log ++ [.opened c.nextId f]) j ↔ halted c.log j := by
      intro j; simp [halted]
    have ho : ∀ j g, Trace.opened j g ∈ c.log ++ [.opened c.nextId f] ↔ Trace.opened j g ∈ c.log ∨ j = c.nextId ∧ g = f := by
      intro j g; simp
    refine ⟨h.wild, h.plain, h.lists, ?_, ?_, ?_, ?_⟩
    case refine_4 =>
      intro j g hx
      rcases (ho j g).1 hx with hx | ⟨rfl, rfl⟩
      · exact h.legal j g hx
      · exact hv
    case refine_3 =>
      intro j g hx
      simp only [AMap.get_set]
      rcases (ho j g).1 hx with hx | ⟨rfl, rfl⟩
      · rcases h.kept j g hx with hx | ⟨o, o1, o2⟩
        · exact .inl (by simp [hx])
        · refine .inr ⟨o, ?_, o2⟩
          rw [if_neg]
          · exact o1
          · rintro rfl
            rw [hnew] at o1
            cases o1
      · exact .inr ⟨_, if_pos rfl, rfl⟩
    · intro j o g _ hg hb
      simp only at hg
      rw [AMap.get_set] at hg
      split at hg
      · rename_i e
        subst e
        cases hg
        cases hb
        obtain ⟨f1, f2⟩ := h.fresh c.nextId (Nat.le_refl _)
        refine ⟨?_, ?_, by simp, by simp, fun _ hx => (by cases hx), fun hx => (by cases hx)⟩
        · intro g
          simp only [ho]
          simp [f2]
        · simp only [reduceCtorEq, false_iff, hh]
          exact f1
      · rename_i hne
        obtain ⟨b1, b2, b3, b4, b5, b6⟩ := h.ops j o g (fun x => x) hg hb
        refine ⟨?_, ?_, b3, b4, b5, b6⟩
        · intro x
          simp only [ho]
          rw [b1 x]
          simp [hne]
        · simp only [hh]; exact b2
    · intro j hn
      have hn : c.nextId + 1 ≤ j := hn
      obtain ⟨f1, f2⟩ := h.fresh j (by omega)
      refine ⟨by simp only [hh]; exact f1, ?_⟩
      intro g
      simp only [ho]
      rintro (hx | hx)
      · exact f2 g hx
      · omega
  · exact h

theorem get_dropFrom {m : AMap Bytes (List Nat)} {id : Nat} (f : Bytes) :
    ((dropFrom m id).get f).getD [] = ((m.get f).getD []).filter (· != id) := by
  induction m with
  | nil => rfl
  | cons e m ih =>
    obtain ⟨g, l⟩ := e
    simp only [dropFrom, List.map_cons, AMap.get_cons] at ih ⊢
    split
    · rfl
    · exact ih

theorem listOf_drop {c c' : Client} {id : Nat} (hs : c'.streams = dropFrom c.streams id)
    (hw : c'.wildcards = dropFrom c.wildcards id) (f : Bytes) : listOf c' f = (listOf c f).filter (· != id) := by
  unfold listOf
  rw [hs, hw]
  split
  · exact get_dropFrom f
  · exact get_dropFrom f

theorem destroy_str {c c' : Client} {id : Nat} (h : Str (fun _ => False) c) (hr : c.destroy id = .ok c') :
    Str (fun _ => False) c' := by
  unfold Client.destroy at hr
  split at hr
  · cases hr
  · rename_i op hg
    simp only at hr
    split at hr
    · cases hr
    · rename_i c1 h1
      have h2 : Same (fun _ => False) { c with
            timeouts := c.timeouts.filter (· != id)
            queue := c.queue.filter (· != id)
            streams := dropFrom c.streams id
            wildcards := dropFrom c.wildcards id } c1 ∧ c1.ops = c.ops ∧ c1.log = c.log ∧ c1.nextId = c.nextId := by
        split at h1
        · refine ⟨absorb_same h1, ?_⟩
          unfold Client.absorb at h1
          simp only at h1
          split at h1
          · cases h1
          · cases h1; exact ⟨rfl, rfl, rfl⟩
        · cases h1; exact ⟨.refl _, rfl, rfl, rfl⟩
      obtain ⟨⟨a1, a2, a3, a4, a5, a6, a7, a8⟩, e1, e2, e3⟩ := h2
      have h3 : c'.queue = c1.queue ∧ c'.ops = c1.ops.del id ∧ c'.nextId = c1.nextId ∧ c'.streams = c1.streams ∧
          c'.wildcards = c1.wildcards ∧ (∃ new, c'.log = c1.log ++ new ∧ ∀ e ∈ new, plainEntry e = true) ∧
          ((∃ f, op.body = .stream f) → Trace.closedDown id ∈ c'.log) := by
        simp only [Except.ok.injEq] at hr
        rw [← hr]
        unfold Client.removeFromTables
        rcases Body.cases op.body with ⟨f, hb⟩ | ⟨r, hb⟩
        · simp [hb, plainEntry]
        · simp only [hb]
          split <;> exact ⟨rfl, rfl, rfl, rfl, rfl, ⟨[], by simp, by simp⟩, fun ⟨_, hx⟩ => by cases hx⟩
      obtain ⟨f1, f2, f3, f4, f5, ⟨new, f6, f7⟩, f8⟩ := h3
      have hs : c'.streams = dropFrom c.streams id := f4.trans a1
      have hw : c'.wildcards = dropFrom c.wildcards id := f5.trans a2
      have hq : c'.queue = c.queue.filter (· != id) := f1.trans a3
      have hl : c'.log = c.log ++ new := by rw [f6, e2]
      refine ⟨by rw [hw]; exact dropFrom_nodup h.wild id, ?_, ?_, ?_, ?_, ?_, ?_⟩
      case refine_6 =>
        intro j g hx
        rw [hl, opened_append f7] at hx
        exact h.legal j g hx
      case refine_5 =>
        intro j g hx
        rw [hl, opened_append f7] at hx
        rcases h.kept j g hx with hx | ⟨o, o1, o2⟩
        · exact .inl (by rw [hl]; exact List.mem_append.2 (.inl hx))
        · by_cases e : j = id
          · subst e
            rw [hg] at o1
            cases o1
            exact .inl (f8 ⟨g, o2⟩)
          · exact .inr ⟨o, by rw [f2, e1, AMap.get_del, if_neg e]; exact o1, o2⟩
      · rw [hs]
        intro e he
        obtain ⟨x, hx, rfl⟩ := List.mem_map.1 he
        exact ⟨(h.plain x hx).1, (h.plain x hx).2.filter _⟩
      · rw [hw]
        intro e he
        obtain ⟨x, hx, rfl⟩ := List.mem_map.1 he
        exact ⟨(h.lists x hx).1, (h.lists x hx).2.filter _⟩
      · intro j o f _ hgo hb
        rw [f2, e1, AMap.get_del] at hgo
        split at hgo
        · cases hgo
        · rename_i hne
          obtain ⟨b1, b2, b3, b4, b5, b6⟩ := h.ops j o f (fun x => x) hgo hb
          refine ⟨?_, ?_, b3, ?_, ?_, ?_⟩
          · intro g; rw [hl, opened_append f7]; exact b1 g
          · rw [hl, halted_append f7]; exact b2
          · intro hx
            refine ⟨(b4 hx).1, ?_⟩
            rw [hq]
            exact fun hy => (b4 hx).2 (List.mem_filter.1 hy).1
          · intro x1 x2
            rw [hq]
            rcases b5 x1 x2 with b5 | b5
            · exact .inl (List.mem_filter.2 ⟨b5, by simpa using hne⟩)
            · exact .inr b5
          · intro hx
            rw [listOf_drop hs hw]
            exact List.mem_filter.2 ⟨b6 hx, by simpa using hne⟩
      · intro j hn
        rw [hl, halted_append f7]
        simp only [opened_append f7]
        exact h.fresh j (by rw [f3, e3] at hn; exact hn)

theorem mem_set {m : AMap Bytes (List Nat)} {k : Bytes} {v : List Nat} {e : Bytes × List Nat} (h : e ∈ m.set k v) :
    e = (k, v) ∨ e ∈ m := by
  unfold AMap.set at h
  rcases List.mem_cons.1 h with h | h
  · exact .inl h
  · exact .inr ((List.mem_filter.1 h).1)

theorem getD_nodup {m : AMap Bytes (List Nat)} (h : ∀ e ∈ m, e.2.Nodup) (f : Bytes) : ((m.get f).getD []).Nodup := by
  cases hg : m.get f with
  | none => simp
  | some l => exact h (f, l) (AMap.get_some_mem hg)

/-- A stream is put into the lists. -/
theorem addToTables_str {cfg : Config} {cur : List Task} {c : Client} (hi : Inv cfg false cur c) {id : Nat} {op : Op}
    (hg : c.ops.get id = some op) (hin : op.inTables = false) (h : Str (· = id) c) :
    Str (· = id) (c.addToTables id op) ∧ ∀ f, op.body = .stream f → id ∈ listOf (c.addToTables id op) f := by
  have hno : ∀ f l, (c.wildcards.get f = some l ∨ c.streams.get f = some l) → id ∉ l := by
    intro f l hx hm
    have : ∃ o, c.ops.get id = some o ∧ o.body = .stream f ∧ o.inTables = true := by
      rcases hx with hx | hx
      · exact hi.wildcards (f, l) (AMap.get_some_mem hx) id hm
      · exact hi.streams (f, l) (AMap.get_some_mem hx) id hm
    obtain ⟨o, o1, o2, o3⟩ := this
    rw [hg] at o1
    cases o1
    rw [hin] at o3
    cases o3
  have hno' : ∀ m : AMap Bytes (List Nat), (m = c.wildcards ∨ m = c.streams) → ∀ f, id ∉ (m.get f).getD [] := by
    intro m hm f
    cases hx : m.get f with
    | none => simp
    | some l =>
      refine hno f l ?_
      rcases hm with rfl | rfl
      · exact .inl hx
      · exact .inr hx
  have hnd : ∀ {l : List Nat}, l.Nodup → id ∉ l → (l ++ [id]).Nodup := by
    intro l h1 h2
    rw [List.nodup_append]
    refine ⟨h1, by simp, ?_⟩
    intro a ha b hb
    simp only [List.mem_singleton] at hb
    subst hb
    exact fun e => h2 (e ▸ ha)
  have hops : ∀ (c' : Client), c'.ops = c.ops.set id { op with inTables := true } → c'.log = c.log → c'.queue = c.queue →
      (∀ f j, j ≠ id → j ∈ listOf c f → j ∈ listOf c' f) →
      ∀ j o f, j ≠ id → c'.ops.get j = some o → o.body = .stream f → StrOp c' j o f := by
    intro c' x1 x2 x3 x4 j o f hne hgo hb
    rw [x1, AMap.get_set, if_neg hne] at hgo
    obtain ⟨b1, b2, b3, b4, b5, b6⟩ := h.ops j o f hne hgo hb
    exact ⟨by rw [x2]; exact b1, by rw [x2]; exact b2, b3, by rw [x3]; exact b4, by rw [x3]; exact b5,
      fun hx => x4 f j hne (b6 hx)⟩
  have hkept : ∀ (c' : Client), c'.ops = c.ops.set id { op with inTables := true } → c'.log = c.log →
      ∀ j f, Trace.opened j f ∈ c'.log → Trace.closedDown j ∈ c'.log ∨ ∃ o, c'.ops.get j = some o ∧ o.body = .stream f := by
    intro c' x1 x2 j f hx
    rw [x2] at hx ⊢
    rcases h.kept j f hx with hx | ⟨o, o1, o2⟩
    · exact .inl hx
    · right
      rw [x1, AMap.get_set]
      by_cases e : j = id
      · subst e
        rw [hg] at o1
        cases o1
        exact ⟨_, if_pos rfl, o2⟩
      · exact ⟨o, by rw [if_neg e]; exact o1, o2⟩
  unfold Client.addToTables
  rcases Body.cases op.body with ⟨f, hb⟩ | ⟨r, hb⟩
  · simp only [hb]
    by_cases hw : hasWildcard f = true
    · simp only [hw, if_true]
      refine ⟨⟨AMap.nodup_set h.wild _ _, h.plain, ?_, ?_, h.fresh, hkept _ (by simp [hb]) rfl, h.legal⟩, ?_⟩
      · intro e he
        rcases mem_set he with rfl | he
        · exact ⟨hw, hnd (getD_nodup (fun e he => (h.lists e he).2) f) (hno' _ (.inl rfl) f)⟩
        · exact h.lists e he
      · refine hops _ (by simp [hb]) rfl rfl ?_
        intro g j hne hj
        unfold listOf at hj ⊢
        split
        · rename_i hgw
          rw [if_pos hgw] at hj
          simp only
          rw [AMap.get_set]
          split
          · rename_i e; subst e; simp [hj]
          · exact hj
        · rename_i hgw
          rw [if_neg hgw] at hj
          exact hj
      · intro g e
        cases e
        unfold listOf
        rw [if_pos hw]
        simp
    · simp only [hw, if_false, Bool.false_eq_true]
      refine ⟨⟨h.wild, ?_, h.lists, ?_, h.fresh, hkept _ (by simp [hb]) rfl, h.legal⟩, ?_⟩
      · intro e he
        rcases mem_set he with rfl | he
        · exact ⟨by simpa using hw, hnd (getD_nodup (fun e he => (h.plain e he).2) f) (hno' _ (.inr rfl) f)⟩
        · exact h.plain e he
      · refine hops _ (by simp [hb]) rfl rfl ?_
        intro g j hne hj
        unfold listOf at hj ⊢
        split
        · rename_i hgw
          rw [if_pos hgw] at hj
          exact hj
        · rename_i hgw
          rw [if_neg hgw] at hj
          simp only
          rw [AMap.get_set]
          split
          · rename_i e; subst e; simp [hj]
          · exact hj
      · intro g e
        cases e
        unfold listOf
        rw [if_neg hw]
        simp
  · simp only [hb]
    refine ⟨⟨h.wild, h.plain, h.lists, ?_, h.fresh, hkept _ (by simp [hb]) rfl, h.legal⟩, fun f e => (by cases e)⟩
    exact hops _ (by simp [hb]) rfl rfl (fun f j _ hj => hj)

/-- An operation leaves the queue. -/
theorem onAcquired_str {cfg : Config} {c c' : Client} {cur : List Task} (hi : Inv cfg false cur c)
    {id : Nat} (h : Str (· = id) c) {op : Op} (hg : c.ops.get id = some op) (ht : op.tracked = true) (hin : op.inTables = false)
    (hq : id ∉ c.queue)
    (hb : ∀ f, op.body = .stream f → (∀ g, Trace.opened id g ∈ c.log ↔ g = f) ∧ ¬ halted c.log id ∧ op.state ≠ .terminal ∧
      op.state ≠ .pendingDestroy)
    {env : Env} {res : Acquired} (hres : res ≠ .blocked) (hr : c.onAcquired env id res = .ok c') :
    Str (fun _ => False) c' := by
  obtain ⟨f1, f2, f3, f4, f5, f6⟩ := addToTables_fields c id op
  obtain ⟨t1, t2⟩ := addToTables_str hi hg hin h
  have hset : ∀ s, (c.addToTables id op).setState id s =
      { c.addToTables id op with ops := c.ops.set id { op with inTables := true, state := s } } := by
    intro s
    simp only [Client.setState, f1, AMap.get_set_same, AMap.set_set]
  have hst : ∀ s, s ≠ .terminal → s ≠ .pendingDestroy → Str (fun _ => False) ((c.addToTables id op).setState id s) := by
    intro s s1 s2
    have hsame : Same (· = id) (c.addToTables id op) ((c.addToTables id op).setState id s) := by
      rw [hset]
      refine .set (new := []) (op := { op with inTables := true }) (op' := { op with inTables := true, state := s })
        (by rw [f1, AMap.get_set_same]) ?_ rfl rfl rfl rfl rfl (by simp) (by simp) rfl (.inr (.inl rfl))
      simp only
      rw [f1, AMap.set_set]
    refine (t1.same hsame).join ?_
    intro o f hgo hbo
    rw [hset] at hgo ⊢
    simp only [AMap.get_set_same, Option.some.injEq] at hgo
    subst hgo
    obtain ⟨b1, b2, b3, b4⟩ := hb f hbo
    refine ⟨by simp only; rw [f2]; exact b1, ?_, s2, fun hx => absurd hx s1, fun hx => (by cases hx), fun _ => t2 f hbo⟩
    simp only
    rw [f2]
    exact ⟨fun hx => absurd hx s1, fun hx => absurd hx b2⟩
  have hlt : id < c.nextId := hi.lt hg
  unfold Client.onAcquired at hr
  rw [hg] at hr
  simp only at hr
  have hfail : ∀ e, c.failOp id e = .ok c' → Str (fun _ => False) c' := by
    intro e hr
    unfold Client.failOp at hr
    rw [hg] at hr
    simp only at hr
    rcases Body.cases op.body with ⟨f, hbf⟩ | ⟨r, hbr⟩
    · simp only [hbf] at hr
      obtain ⟨b1, b2, b3, b4⟩ := hb f hbf
      refine (halt_str h hg hbf b1 ⟨fun hx => absurd hx b3, fun hx => absurd hx b2⟩ b4 ?_ hlt ht hq hr).weaken ?_
      · rw [hin]; exact fun hx => (by cases hx)
      · exact fun i hx => hx.2 hx.1
    · simp only [hbr] at hr
      refine (h.same (failRequest_same hr)).join ?_
      intro o f hgo hbo
      obtain ⟨o', o1, o2, -⟩ := (failRequest_calm hr).back hgo
      rw [hg] at o1
      cases o1
      rw [o2, hbr] at hbo
      cases hbo
  cases res with
  | failure => exact hfail _ hr
  | noCapacity => exact hfail _ hr
  | blocked => exact absurd rfl hres
  | subscribing =>
    cases hr
    exact hst _ (by simp) (by simp)
  | subscribed =>
    simp only at hr
    split at hr
    · cases hr
      exact (hst .subscribed (by simp) (by simp)).same (.env rfl rfl rfl rfl rfl rfl rfl (by simp [plainEntry]))
    · rename_i r0 hbr
      refine (t1.same (makeRequest_same hr)).join ?_
      intro o f hgo hbo
      obtain ⟨o', o1, o2, -⟩ := (makeRequest_calm hr).back hgo
      rw [f1, AMap.get_set_same] at o1
      cases o1
      rw [o2] at hbo
      have hbo : op.body = _ := hbo
      rw [hbr] at hbo
      cases hbo

theorem dequeue_str {cfg : Config} {cur : List Task} {env : Env} : ∀ (q : List Nat) {c c' : Client},
    Inv cfg false cur c → Str (fun _ => False) c → c.phase = .active → c.queue = q →
    Client.dequeue cfg env c q = .ok c' → Str (fun _ => False) c' := by
  intro q
  induction q with
  | nil => intro c c' h hpub _ _ hr; cases hr; exact hpub
  | cons id q ih =>
    intro c c' h hpub hp hq hr
    have hmem : id ∈ c.queue := by rw [hq]; simp
    obtain ⟨op, hg, ht, hin⟩ := h.queue id hmem
    have hnq : id ∉ q := by
      have := h.queueNodup
      rw [hq, List.nodup_cons] at this
      exact this.1
    simp only [Client.dequeue, hg] at hr
    split at hr
    · rename_i hcan
      obtain ⟨hrm, hc⟩ := h.manager hp
      obtain ⟨res, m, e1, e2, e3⟩ := Rr.acquire_ok (Rr.reachable_minv hrm) hc env.toEnv op.body.filters id op.body.kind
      simp only [e1] at hr
      have h0 : Inv cfg false cur { c with queue := q } := h.pop (by rw [hq]; exact List.sublist_cons_self _ _)
      have hkn : Known { c with queue := q } op.body.kind id := ⟨h.lt hg, hnq, by
        intro o ho
        rw [show AMap.get _ id = some op from hg] at ho
        cases ho
        exact ⟨rfl, ht⟩⟩
      obtain ⟨s1, s2⟩ := Rr.acquire_sound (P := Known { c with queue := q }) (h0.kinds hp) hkn e1
      have hr' : Rr.Reachable cfg.manager m :=
        .step (e := .acquire env.toEnv op.body.filters id op.body.kind) hrm hc (by simp only [Rr.step, e1])
      obtain ⟨l, a1, a2⟩ := absorb_ok h0 hp hr' e3 s1 s2
      have habs : c.absorb m = .ok { c with manager := m, tasks := c.tasks ++ l } := by
        unfold Client.absorb at a1 ⊢
        simp only at a1 ⊢
        rw [if_neg (by rw [hp]; simp)] at a1 ⊢
        simp only [Except.ok.injEq, Client.mk.injEq] at a1 ⊢
        simp_all
      have hpub1 := hpub.same (absorb_same habs)
      rw [habs] at hr
      simp only at hr
      split at hr
      · cases hr; exact hpub1
      · rename_i hnb
        obtain ⟨c2, b1, b2, b3, b4⟩ := onAcquired_ok (id := id) (op := op) a2 hg ht hin hnq
          (by
            intro r hb
            simp only [Client.canDequeue, hb] at hcan
            simpa using hcan)
          (by
            intro hk
            refine ⟨?_, fun hst => (by cases hst)⟩
            cases hb : op.body with
            | stream f => rw [hb] at hk; cases hk
            | request r =>
              obtain ⟨_, _, _, _, i5⟩ := idOk_request (h.ids id) hg hb
              simp only
              rcases i5 with ⟨_, _, _, _, a5, _⟩ | ⟨_, _, _, a4, _⟩ | ⟨_, _, _, _, _, a6⟩
              · omega
              · omega
              · exact absurd hmem a6) env res
        have hpop : Str (· = id) { c with manager := m, tasks := c.tasks ++ l, queue := q } := by
          refine ⟨hpub1.wild, hpub1.plain, hpub1.lists, ?_, hpub1.fresh, hpub1.kept, hpub1.legal⟩
          intro j o f hne hgo hb
          obtain ⟨d1, d2, d3, d4, d5, d6⟩ := hpub1.ops j o f (fun x => x) hgo hb
          refine ⟨d1, d2, d3, fun hx => ⟨(d4 hx).1, fun hy => (d4 hx).2 ?_⟩, fun x1 x2 => ?_, d6⟩
          · show j ∈ c.queue
            rw [hq]
            exact List.mem_cons_of_mem _ hy
          · rcases d5 x1 x2 with d5 | d5
            · left
              have hx : j ∈ c.queue := d5
              rw [hq] at hx
              rcases List.mem_cons.1 hx with hx | hx
              · exact absurd hx hne
              · exact hx
            · exact .inr d5
        have hpub2 : Str (fun _ => False) c2 := by
          refine onAcquired_str a2 hpop (op := op) hg ht hin hnq ?_ hnb b1
          intro f hb
          obtain ⟨d1, d2, d3, d4, d5, d6⟩ := hpub1.ops id op f (fun x => x) hg hb
          have hnt : op.state ≠ .terminal := fun hx => (d4 hx).2 hmem
          exact ⟨d1, fun hx => hnt (d2.2 hx), hnt, d3⟩
        simp only at b1
        rw [b1] at hr
        simp only at hr
        exact ih b2 hpub2 (by rw [b4]; exact hp) b3 hr
    · cases hr; exact hpub

theorem service_str {cfg : Config} {c c' : Client} (hi : Inv cfg false [] c) (h : Str (fun _ => False) c) {env : Env}
    {expired : List Nat} (he : ∀ i ∈ expired, i ∈ c.timeouts) (hr : c.service cfg env expired = .ok c') :
    Str (fun _ => False) c' := by
  unfold Client.service at hr
  have h0 : ∀ (c : Client) s, Same (fun _ => False) c { c with scheduled := s } :=
    fun c s => .env (new := []) rfl rfl rfl rfl rfl rfl (by simp) (by simp)
  have hsch : ∀ {c : Client}, Inv cfg false [] c → ∀ s, Inv cfg false [] { c with scheduled := s } := fun h s =>
    h.env (l := []) (es := []) (by simp) (by simp) .nil (fun _ hi => hi) h.publishes (fun hx => ⟨h.manager hx, h.kinds hx⟩)
  split at hr
  · cases hr; exact h.same (h0 _ _)
  · rename_i hp
    have hp : c.phase = .active := Decidable.of_not_not hp
    obtain ⟨c1, a1, a2, a3, a4⟩ := expire_ok expired (hsch hi 0) (by
      intro i hx
      obtain ⟨op, r, o1, _, o2⟩ := hi.timeouts i (he i hx)
      exact ⟨op, o1, o2⟩) (by intro hx; cases hx)
    simp only [a1] at hr
    have hreq : ∀ i ∈ expired, ∀ op, c.ops.get i = some op → ∃ r, op.body = .request r := by
      intro i hx op hg
      obtain ⟨o, r, o1, o2, _⟩ := hi.timeouts i (he i hx)
      rw [hg] at o1
      cases o1
      exact ⟨r, o2⟩
    have hexp : ∀ (is : List Nat) (c c1 : Client), (∀ i ∈ is, ∀ op, c.ops.get i = some op → ∃ r, op.body = .request r) →
        each (fun c i => Client.failOp { c with timeouts := c.timeouts.erase i } i .timeout) c is = .ok c1 →
        Same (fun _ => False) c c1 := by
      intro is
      induction is with
      | nil => intro c c1 _ hx; cases hx; exact .refl _
      | cons i is ih =>
        intro c c1 hq hx
        unfold each at hx
        split at hx
        · cases hx
        · rename_i c2 h2
          have hy : Same (fun _ => False) c { c with timeouts := c.timeouts.erase i } :=
            .env (new := []) rfl rfl rfl rfl rfl rfl (by simp) (by simp)
          refine Same.trans (hy.trans ?_) (ih c2 c1 ?_ hx)
          · unfold Client.failOp at h2
            split at h2
            · cases h2
            · rename_i op hg
              obtain ⟨r, hb⟩ := hq i (by simp) op hg
              simp only [hb] at h2
              exact failRequest_same h2
          · intro j hj op hg
            obtain ⟨o, o1, o2, -⟩ := (failOp_calm h2).back hg
            obtain ⟨r, hb⟩ := hq j (List.mem_cons_of_mem _ hj) o o1
            exact ⟨r, by rw [o2]; exact hb⟩
    have h1 : Str (fun _ => False) c1 := h.same ((h0 c 0).trans (hexp expired { c with scheduled := 0 } c1 hreq a1))
    have hp1 : c1.phase = .active := by rw [a3]; exact hp
    split at hr
    · cases hr
    · rename_i c2 h2
      cases hr
      refine Str.same ?_ (h0 c2 _)
      unfold Client.processQueue at h2
      obtain ⟨hrm, hc⟩ := a2.manager hp1
      obtain ⟨m, e1, e2, e3, _⟩ := Rr.purge_ok (Rr.reachable_minv hrm) hc env.toEnv
      obtain ⟨l, b1, b2⟩ := manage_ok (e := .purge env.toEnv) a2 hp1 hc e1 e3 (Rr.purge_sound (a2.kinds hp1) e1)
      simp only [Client.manage, e1, b1] at h2
      exact dequeue_str _ b2 (h1.same (absorb_same b1)) hp1 rfl h2

theorem submit_phase {c c' : Client} {now id : Nat} (hr : c.submit now id = .ok c') : c'.phase = c.phase := by
  unfold Client.submit at hr
  split at hr
  · cases hr
  · split at hr
    · split at hr
      · cases hr
      · rename_i c1 h1
        rw [(releaseOp_calm hr).phase, (failOp_calm h1).phase]
    · simp only at hr
      rw [(releaseOp_calm hr).phase, (wake_same (skip := fun _ => False) _ now).phase]

theorem destroy_phase {c c' : Client} {id : Nat} (hr : c.destroy id = .ok c') : c'.phase = c.phase :=
  (destroy_still (skip := fun _ => False) hr).phase

theorem service_phase {cfg : Config} {c c' : Client} {env : Env} {expired : List Nat}
    (hr : c.service cfg env expired = .ok c') : c'.phase = c.phase := by
  unfold Client.service at hr
  split at hr
  · cases hr; rfl
  · split at hr
    · cases hr
    · rename_i c1 h1
      split at hr
      · cases hr
      · rename_i c2 h2
        cases hr
        refine ((processQueue_calm h2).phase).trans ?_
        exact (each_still (skip := fun _ => False) (by
          intro c i c' hx
          have hy : Still (fun _ => False) c { c with timeouts := c.timeouts.erase i } :=
            .env rfl List.prefix_rfl rfl rfl rfl rfl (fun _ => rfl)
          exact hy.trans (failOp_still hx)) h1).phase

theorem onStatus_phase {c c' : Client} {s : Status} {env : Env} {now : Nat} (hr : c.onStatus env now s = .ok c') :
    c'.phase = c.phase := by
  unfold Client.onStatus at hr
  split at hr
  · cases hr; exact (wake_same (skip := fun _ => False) _ now).phase
  · cases hr; exact (wake_same (skip := fun _ => False) _ now).phase
  · split at hr
    · cases hr; rfl
    · split at hr
      · split at hr
        · exact (requestStatus_calm hr).phase
        · exact (requestStatus_calm hr).phase
        · exact (requestStatus_calm hr).phase
        · exact (streamStatus_calm hr).phase
      · cases hr; rfl

theorem step_phase {cfg : Config} {c c' : Client} {now : Nat} {e : Event} (hr : stepAt cfg c now e = .ok c')
    (hp : c'.phase ≠ .shuttingDown) : c.phase ≠ .shuttingDown := by
  intro hc
  apply hp
  cases e with
  | submit r =>
    cases hr
    unfold Client.submitRequest
    split <;> exact hc
  | openStream f => cases hr; exact (openStream_still (skip := fun _ => False) _ f).phase.trans hc
  | activate id => exact (activate_same (skip := fun _ => False) hr).phase.trans hc
  | close id => exact (close_same (skip := fun _ => False) hr).phase.trans hc
  | release => cases hr; exact hc
  | task env k =>
    simp only [stepAt] at hr
    split at hr
    · cases hr; exact hc
    · rename_i t _
      cases t with
      | «initialize» =>
        cases hr
        unfold Client.initialize
        simp [hc]
      | status s => exact (onStatus_phase hr).trans hc
      | submit id => exact (submit_phase hr).trans hc
      | destroy id => exact (destroy_phase hr).trans hc
      | shutdown =>
        simp only [Client.run, Client.shutdown] at hr
        split at hr
        · cases hr
        · rename_i c1 x1
          have y1 := (manage_calm x1).phase
          split at hr
          · cases hr
          · rename_i c2 x2
            have y2 := (each_calm (fun _ _ _ hx => publishDone_calm hx) x2).phase
            have y3 := (each_calm (fun _ _ _ hx => failOp_calm hx) hr).phase
            rw [y3, y2, y1]
  | service env expired => exact (service_phase hr).trans hc
  | finished env f a ok retryable =>
    simp only [stepAt] at hr
    split at hr
    · cases hr; exact hc
    · exact (manage_calm hr).phase.trans hc
  | connection env up joined =>
    simp only [stepAt] at hr
    split at hr
    · cases hr; exact hc
    · exact (manage_calm hr).phase.trans hc
  | publish msg => exact (onPublish_calm hr).phase.trans hc
  | publishDone id ok => exact (publishDone_calm hr).phase.trans hc
  | adapterTerminated => cases hr; exact hc
  | terminate =>
    simp only [stepAt] at hr
    split at hr
    · cases hr
    · cases hr; exact hc

theorem step_str {cfg : Config} {c c' : Client} (hi : Inv cfg false [] c)
    (h : c.phase ≠ .shuttingDown → Str (fun _ => False) c) {now : Nat}
    {e : Event} (he : Enabled c now e) (hr : stepAt cfg { c with clock := now } now e = .ok c') :
    c'.phase ≠ .shuttingDown → Str (fun _ => False) c' := by
  intro hp'
  have hp := step_phase hr hp'
  have h0 : Str (fun _ => False) { c with clock := now } :=
    (h hp).same (.env (new := []) rfl rfl rfl rfl rfl rfl (by simp) (by simp))
  have hi0 := hi.at now
  have hnew : c.ops.get c.nextId = none := by
    cases hg : c.ops.get c.nextId with
    | none => rfl
    | some o => exact absurd (hi.lt hg) (Nat.lt_irrefl _)
  cases e with
  | submit r => cases hr; exact h0.same (submitRequest_same { c with clock := now } hnew now r)
  | openStream f => cases hr; exact openStream_str (c := { c with clock := now }) hnew h0 f
  | activate id => exact h0.same (activate_same hr)
  | close id => exact h0.same (close_same hr)
  | release =>
    cases hr
    exact h0.same (.env (new := []) rfl rfl rfl rfl rfl rfl (by simp) (by simp))
  | task env k =>
    obtain ⟨t, a1, a2, a3⟩ := he
    have h1 : Str (fun _ => False) { c with clock := now, tasks := c.tasks.eraseIdx k } :=
      h0.same (.env (new := []) rfl rfl rfl rfl rfl rfl (by simp) (by simp))
    have hi1 := hi0.take (c := { c with clock := now }) a1
    simp only [stepAt, a1] at hr
    cases t with
    | «initialize» => cases hr; exact initialize_str h1
    | status s => exact onStatus_str hi1 h1 hr
    | submit id => exact submit_str hi1 h1 hp hr
    | destroy id => exact destroy_str h1 hr
    | shutdown =>
      exfalso
      apply hp'
      simp only [Client.run, Client.shutdown] at hr
      split at hr
      · cases hr
      · rename_i c1 x1
        have y1 := (manage_calm x1).phase
        split at hr
        · cases hr
        · rename_i c2 x2
          have y2 := (each_calm (fun _ _ _ hx => publishDone_calm hx) x2).phase
          have y3 := (each_calm (fun _ _ _ hx => failOp_calm hx) hr).phase
          rw [y3, y2, y1]
  | service env expired =>
    obtain ⟨a1, a2, a3⟩ := he
    exact service_str hi0 h0 (fun i hx => (List.mem_filter.1 (a3.1.mem_iff.1 hx)).1) hr
  | finished env f a ok retryable =>
    simp only [stepAt] at hr
    split at hr
    · cases hr; exact h0
    · exact h0.same (manage_same hr)
  | connection env up joined =>
    simp only [stepAt] at hr
    split at hr
    · cases hr; exact h0
    · exact h0.same (manage_same hr)
  | publish msg => exact h0.same (onPublish_same hr)
  | publishDone id ok => exact h0.same (publishDone_same hr)
  | adapterTerminated => cases hr; exact h0.same (.env (new := []) rfl rfl rfl rfl rfl rfl (by simp) (by simp))
  | terminate =>
    simp only [stepAt] at hr
    split at hr
    · cases hr
    · cases hr; exact h0.same (.env rfl rfl rfl rfl rfl rfl rfl (by simp [plainEntry]))

theorem rehash_str {cfg : Config} {c c' : Client} (hi : Inv cfg false [] c)
    (h : c.phase ≠ .shuttingDown → Str (fun _ => False) c) (hr : Rehash c c') :
    c'.phase ≠ .shuttingDown → Str (fun _ => False) c' := by
  intro hp
  rw [hr.same] at hp
  have h := h hp
  have ho : ∀ j, c'.ops.get j = c.ops.get j := fun j => AMap.get_perm hi.nodup hr.ops j
  have hl : c'.log = c.log := by rw [hr.same]
  have hq : c'.queue = c.queue := by rw [hr.same]
  have hn : c'.nextId = c.nextId := by rw [hr.same]
  refine ⟨AMap.nodup_perm h.wild hr.wildcards, fun e he => h.plain e (hr.streams.mem_iff.1 he),
    fun e he => h.lists e (hr.wildcards.mem_iff.1 he), ?_, by rw [hl, hn]; exact h.fresh, by
      rw [hl]; simp only [ho]; exact h.kept, by rw [hl]; exact h.legal⟩
  intro id op f _ hg hb
  rw [ho] at hg
  obtain ⟨b1, b2, b3, b4, b5, b6⟩ := h.ops id op f (fun x => x) hg hb
  refine ⟨by rw [hl]; exact b1, by rw [hl]; exact b2, b3, by rw [hq]; exact b4, by rw [hq]; exact b5, ?_⟩
  intro hx
  have := b6 hx
  unfold listOf at this ⊢
  split
  · rename_i hw
    rw [if_pos hw] at this
    rw [AMap.get_perm h.wild hr.wildcards]
    exact this
  · rename_i hw
    rw [if_neg hw] at this
    rw [AMap.get_perm hi.streamsNodup hr.streams]
    exact this

theorem new_str : Str (fun _ => False) ({} : Client) :=
  ⟨List.nodup_nil, fun _ he => (by cases he), fun _ he => (by cases he), fun id op f _ hg => (by cases hg),
    fun _ _ => ⟨fun ⟨_, hx⟩ => (by cases hx), fun _ hx => (by cases hx)⟩, fun _ _ hx => (by cases hx),
    fun _ _ hx => (by cases hx)⟩

theorem reachable_str {cfg : Config} {allowed : Client → Event → Prop} {c : Client} (h : Reachable cfg allowed c) :
    c.phase ≠ .shuttingDown → Str (fun _ => False) c := by
  induction h with
  | new => exact fun _ => new_str
  | step h0 _ _ h1 h2 h3 ih => exact step_str (reachable_inv h0 (by intro hx; cases hx)) ih h1 h3
  | rehash h0 h1 ih => exact rehash_str (reachable_inv h0 (by intro hx; cases hx)) ih h1

end Mqtt.RrClient
