import Verif.TopicAlias
import Verif.Lemmas.TopicAlias

/-! C17 and C18: topic aliases. -/
namespace Mqtt.Props
open Mqtt Mqtt.Spec Mqtt.TopicAlias

/-! ## C17 -/

/-- What happens to the client: a new connection with the server's announced maximum, or a publish with
its topic and the alias the user chose. -/
inductive AliasEv where
  | connect (max : Nat)
  | publish (topic : Bytes) (alias : Option Nat)

/-- What the server sees. `publish` carries the user's topic for comparison. -/
inductive AliasSeen where
  | connect (max : Nat)
  | refused
  | publish (original topic : Bytes) (alias : Option Nat)

/-- The client's side of a history; `none` is an abort. -/
def aliasClient (r : Outbound) : List AliasEv → Option (List AliasSeen)
  | [] => some []
  | .connect m :: evs => (aliasClient (r.reset m) evs).map (.connect m :: ·)
  | .publish t a :: evs =>
    match beginPublish r t a with
    | .abort => none
    | .refused => (aliasClient r evs).map (.refused :: ·)
    | .ok r' t' a' => (aliasClient r' evs).map (.publish t t' a' :: ·)

/-- The server's side: the topics it understands, `none` on a protocol error. -/
def aliasServer (s : AliasServer) : List AliasSeen → Option (List Bytes)
  | [] => some []
  | .connect m :: l => aliasServer (.fresh m) l
  | .refused :: l => aliasServer s l
  | .publish _ t a :: l =>
    match s.receive t a with
    | none => none
    | some (s', t') => (aliasServer s' l).map (t' :: ·)

/-- The topics of the publishes that were sent. -/
def sentTopics : List AliasSeen → List Bytes
  | [] => []
  | .publish o _ _ :: l => o :: sentTopics l
  | _ :: l => sentTopics l

/-- What is seen are the events, in order; only a manually chosen alias out of range is refused. -/
inductive Faithful (b : Behavior) : Nat → List AliasEv → List AliasSeen → Prop where
  | nil {m} : Faithful b m [] []
  | connect {m n evs l} : Faithful b n evs l → Faithful b m (.connect n :: evs) (.connect n :: l)
  | sent {m t a t' a' evs l} : Faithful b m evs l → Faithful b m (.publish t a :: evs) (.publish t t' a' :: l)
  | refused {m t a evs l} : b = .manual → (a = 0 ∨ a > m) → Faithful b m evs l →
      Faithful b m (.publish t (some a) :: evs) (.refused :: l)

/-- A server maximum is a 16-bit number; a publish has a topic (checked at submission,
mqtt5_options_storage.c:1642). -/
def AliasEv.Legal : AliasEv → Prop
  | .connect m => m < 65536
  | .publish t _ => t ≠ []

/-- **C17.** For every outbound alias policy and every history of connections and publishes the client does
not abort; a server applying the alias rules to what it sees finds no protocol error and understands
exactly the topics of the publishes sent; and every publish is sent, except that under manual aliasing one
whose alias is 0 or above the maximum is refused. -/
theorem C17_transparent (b : Behavior) (evs : List AliasEv) (hevs : ∀ e ∈ evs, e.Legal) :
    ∃ l, aliasClient (Outbound.new b) evs = some l ∧ aliasServer (.fresh 0) l = some (sentTopics l) ∧
      Faithful b 0 evs l := by
  have key : ∀ (evs : List AliasEv) (r : Outbound) (s : AliasServer), (∀ e ∈ evs, e.Legal) → AliasInv b r s →
      ∃ l, aliasClient r evs = some l ∧ aliasServer s l = some (sentTopics l) ∧ Faithful b s.max evs l := by
    intro evs
    induction evs with
    | nil => intro r s _ _; exact ⟨[], rfl, rfl, .nil⟩
    | cons e evs ih =>
      intro r s hl h
      have hrest : ∀ x ∈ evs, x.Legal := fun x hx => hl x (by simp [hx])
      have he := hl e (by simp)
      cases e with
      | connect m =>
        obtain ⟨l, a1, a2, a3⟩ := ih (r.reset m) (.fresh m) hrest (aliasInv_reset h he)
        exact ⟨.connect m :: l, by simp only [aliasClient, a1, Option.map_some], by simpa only [aliasServer, sentTopics] using a2,
          .connect a3⟩
      | publish t a =>
        rcases alias_step h t he a with ⟨hb, h1, n, rfl, hn⟩ | ⟨r', t', a', s', h1, h2, h3, h4⟩
        · obtain ⟨l, a1, a2, a3⟩ := ih r s hrest h
          exact ⟨.refused :: l, by simp only [aliasClient, h1, a1, Option.map_some],
            by simpa only [aliasServer, sentTopics] using a2, .refused hb hn a3⟩
        · obtain ⟨l, a1, a2, a3⟩ := ih r' s' hrest h3
          refine ⟨.publish t t' a' :: l, by simp only [aliasClient, h1, a1, Option.map_some], ?_, ?_⟩
          · simp only [aliasServer, h2, a2, Option.map_some, sentTopics]
          · rw [h4] at a3; exact .sent a3
  refine key evs _ (.fresh 0) hevs ?_
  cases b with
  | manual => exact .manual rfl (by simp)
  | lru => exact .lruOff rfl
  | disabled => exact .disabled

/-! Non-vacuity: two aliases, three topics, a reconnect. -/
example : (∀ e ∈ [AliasEv.connect 2, .publish [97] none, .publish [98] none, .publish [97] none, .publish [99] none,
      .publish [98] none, .connect 1, .publish [97] none], e.Legal) ∧
    (aliasClient (Outbound.new .lru) [.connect 2, .publish [97] none, .publish [98] none, .publish [97] none,
      .publish [99] none, .publish [98] none, .connect 1, .publish [97] none]).map
        (fun l => l.filterMap fun | .publish _ t a => some (t, a) | _ => none) =
      some [([97], some 1), ([98], some 2), ([], some 1), ([99], some 2), ([98], some 1), ([97], some 1)] := by
  refine ⟨?_, by decide +kernel⟩
  intro e he
  simp only [List.mem_cons, List.not_mem_nil, or_false] at he
  rcases he with rfl | rfl | rfl | rfl | rfl | rfl | rfl | rfl <;> simp [AliasEv.Legal]

example : (aliasClient (Outbound.new .manual) [.connect 2, .publish [97] (some 2), .publish [97] (some 2),
      .publish [98] (some 2), .publish [97] (some 3)]).map
        (fun l => l.filterMap fun | .publish _ t a => some (t, a) | .refused => some ([], none) | _ => none) =
      some [([97], some 2), ([], some 2), ([98], some 2), ([], none)] := by decide +kernel

/-! ## C18 -/

inductive InboundOp where
  | reset (n : Nat)
  | register (alias : Nat) (topic : Bytes)

/-- The resolver after an operation; a refused registration changes nothing. -/
def inboundStep (r : Inbound) : InboundOp → Inbound
  | .reset n => Inbound.reset n
  | .register a t => (r.register a t).getD r

/-- Specification: the client's maximum and the topic last registered under each alias since the reset. -/
def aliasMax (ops : List InboundOp) : Nat :=
  ops.foldl (fun m op => match op with | .reset n => n | .register _ _ => m) 0

def lastRegistered (a : Nat) (ops : List InboundOp) : Option Bytes :=
  ops.foldl (fun o op => match op with | .reset _ => none | .register b t => if b = a then some t else o) none

/-- **C18.** After every history, an alias resolves to the topic most recently registered for it since
the last reset, and fails if it is 0, above the maximum, or not registered; registration succeeds exactly
for the aliases from 1 to the maximum. -/
theorem C18_inbound (ops : List InboundOp) (a : Nat) (t : Bytes) :
    (ops.foldl inboundStep Inbound.init).resolve a =
      (if 1 ≤ a ∧ a ≤ aliasMax ops then lastRegistered a ops else none) ∧
    (((ops.foldl inboundStep Inbound.init).register a t).isSome ↔ 1 ≤ a ∧ a ≤ aliasMax ops) := by
  have key : ∀ (ops : List InboundOp) (r : Inbound) (m : Nat) (o : Option Bytes), r.length = m →
      (1 ≤ a → a ≤ m → r[a - 1]?.join = o) →
      let r' := ops.foldl inboundStep r
      let m' := ops.foldl (fun m op => match op with | .reset n => n | .register _ _ => m) m
      let o' := ops.foldl (fun o op => match op with | .reset _ => none | .register b t => if b = a then some t else o) o
      r'.length = m' ∧ (1 ≤ a → a ≤ m' → r'[a - 1]?.join = o') := by
    intro ops
    induction ops with
    | nil => intro r m o h1 h2; exact ⟨h1, h2⟩
    | cons op ops ih =>
      intro r m o h1 h2
      simp only [List.foldl_cons]
      cases op with
      | reset n =>
        refine ih (Inbound.reset n) n none (by simp [Inbound.reset]) ?_
        intro ha hm
        simp only [Inbound.reset, List.getElem?_replicate]
        rw [if_pos (by omega)]
        rfl
      | register b u =>
        simp only [inboundStep, Inbound.register]
        by_cases hb : b > r.length ∨ b = 0
        · rw [if_pos hb]
          refine ih r m _ h1 ?_
          intro ha hm
          rw [if_neg (by omega)]
          exact h2 ha hm
        · rw [if_neg hb]
          refine ih _ m _ (by simpa using h1) ?_
          intro ha hm
          simp only [Option.getD_some]
          rw [List.getElem?_set]
          by_cases hba : b = a
          · subst hba
            rw [if_pos rfl, if_pos rfl, if_pos (by omega)]
            rfl
          · rw [if_neg (by omega), if_neg hba]
            exact h2 ha hm
  obtain ⟨h1, h2⟩ := key ops Inbound.init 0 none rfl (by omega)
  constructor
  · unfold Inbound.resolve
    by_cases hr : 1 ≤ a ∧ a ≤ aliasMax ops
    · rw [if_pos hr, if_neg (by rw [h1]; show ¬ (a > aliasMax ops ∨ a = 0); omega)]
      exact h2 hr.1 hr.2
    · rw [if_neg hr, if_pos (by rw [h1]; show a > aliasMax ops ∨ a = 0; omega)]
  · unfold Inbound.register
    by_cases hr : 1 ≤ a ∧ a ≤ aliasMax ops
    · rw [if_neg (by rw [h1]; show ¬ (a > aliasMax ops ∨ a = 0); omega)]; simp [hr]
    · rw [if_pos (by rw [h1]; show a > aliasMax ops ∨ a = 0; omega)]
      simpa using hr

/-! Non-vacuity. -/
example : ([.reset 2, .register 1 [97], .register 2 [98], .register 1 [99], .register 3 [97]].foldl inboundStep
    Inbound.init).resolve 1 = some [99] := by decide +kernel

end Mqtt.Props
