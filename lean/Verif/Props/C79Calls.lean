import Verif.Props.C77Typed
import Verif.Props.C79

/-!
C79 with hypotheses on what the user gives the client alone: the C types of the numbers in its options and calls, in the
place of a condition on the packets it sends.
-/
namespace Mqtt.Props

open Mqtt.Spec Mqtt.Spec5 Mqtt.V5 Mqtt.Client5 Mqtt.Options5

/-- The numbers in the options are in the ranges of their C types. -/
structure OptionTypes (o : Options) : Prop where
  connect : ∀ v, o.connect = some v → ConnectTypes v
  aliases : ∀ a, o.aliasing = some a → a.inboundSize < 65536

/-- What a client with such options and calls begins to send is within the limits of MQTT 5, whatever the server sends. -/
theorem C79_numbers {portOk : Nat → Nat → Bool} {uuid : Bytes} {o : Options} {s : Storage}
    (h : store portOk uuid o = some s) (ht : OptionTypes o) {c : Client} (hr : ReachableBy ByTypes s.client c) :
    AllRep c.ops.log := by
  obtain ⟨v, h1, _, hc⟩ := store_eq h
  have hv := ht.connect v h1
  refine C77_numbers hr.reachable (C77_given hr ?_ ?_)
  · rw [hc]
    exact ⟨hv.keepAlive, hv.sessionExpiry, hv.receiveMaximum, hv.topicAliasMaximum, hv.maximumPacketSize, hv.willDelay,
      hv.will⟩
  · rw [hc]
    intro n hn
    simp only [inboundAliasing] at hn
    split at hn
    · rename_i a ha
      have := ht.aliases a ha
      split at hn
      · injection hn with hn
        unfold orElse at hn
        split at hn <;> omega
      · cases hn
    · cases hn

theorem allRep_upto {log a b : List Effect} {e : Effect} (h : AllRep log) (hlog : log = a ++ e :: b) :
    AllRep (a ++ [e]) := by
  intro u p w hx
  refine h u p w ?_
  rw [hlog]
  simp only [List.mem_append, List.mem_cons, List.not_mem_nil, or_false] at hx ⊢
  rcases hx with hx | hx
  · exact .inl hx
  · exact .inr (.inl hx)

/-- **C79, calls**: aliases are those of the option, and none is 0 or more than the server allows. -/
theorem C79_sent_calls {portOk : Nat → Nat → Bool} {uuid : Bytes} {o : Options} {s : Storage}
    (h : store portOk uuid o = some s) (ht : OptionTypes o) {c : Client} (hr : ReachableBy ByTypes s.client c)
    {a b : List Effect} {u : Nat} {v : PublishView} {w : Bytes} (hlog : c.ops.log = a ++ .started u (.publish v) w :: b) :
    ∃ q, packet w = some (.publish q) ∧
      (outboundOption o = 0 ∨ outboundOption o = 3 → topicAliasOf q = none) ∧
      (outboundOption o = 1 → topicAliasOf q = v.topicAlias) ∧
      ∀ n, topicAliasOf q = some n → 0 < n ∧ n ≤ granted a :=
  C79_sent h hr.reachable hlog (allRep_upto (C79_numbers h ht hr) hlog)

/-- **C79, calls, least-recently-used cache**. -/
theorem C79_lru_calls {portOk : Nat → Nat → Bool} {uuid : Bytes} {o : Options} {s : Storage}
    (h : store portOk uuid o = some s) (ht : OptionTypes o) (ho : outboundOption o = 2) {c : Client}
    (hr : ReachableBy ByTypes s.client c) {a b : List Effect} {u : Nat} {v : PublishView} {w : Bytes}
    (hlog : c.ops.log = a ++ .started u (.publish v) w :: b) :
    ∃ q, packet w = some (.publish q) ∧ ((topicAliasOf q).isSome = true ↔ 0 < granted a) ∧
      q.topic = if v.topic ∈ (byUse (published a)).take (granted a) then [] else v.topic :=
  C79_lru h ho hr.reachable hlog (allRep_upto (C79_numbers h ht hr) hlog)

/-- **C79, calls**: aliases the user gives are ignored unless the option is to leave them to the user. -/
theorem C79_ignored_calls {portOk : Nat → Nat → Bool} {uuid : Bytes} {o : Options} {s : Storage}
    (h : store portOk uuid o = some s) (ht : OptionTypes o) (ho : outboundOption o ≠ 1) {c₁ c₂ : Client}
    (hr₁ : ReachableBy ByTypes s.client c₁) (hr₂ : ReachableBy ByTypes s.client c₂) {a₁ a₂ b₁ b₂ : List Effect}
    {u₁ u₂ : Nat} {v₁ v₂ : PublishView} {w₁ w₂ : Bytes} (hlog₁ : c₁.ops.log = a₁ ++ .started u₁ (.publish v₁) w₁ :: b₁)
    (hlog₂ : c₂.ops.log = a₂ ++ .started u₂ (.publish v₂) w₂ :: b₂)
    (hg : granted a₁ = granted a₂) (hp : published a₁ = published a₂) (htop : v₁.topic = v₂.topic) :
    ∃ q₁ q₂, packet w₁ = some (.publish q₁) ∧ packet w₂ = some (.publish q₂) ∧ q₁.topic = q₂.topic ∧
      topicAliasOf q₁ = topicAliasOf q₂ :=
  C79_ignored h ho hr₁.reachable hr₂.reachable hlog₁ hlog₂ (allRep_upto (C79_numbers h ht hr₁) hlog₁)
    (allRep_upto (C79_numbers h ht hr₂) hlog₂) hg hp htop

/-- The hypotheses are met by a client with a cache whose user publishes three times to two topics. -/
example : ∃ s c, store (fun _ _ => true) [] (aliasOptions { outbound := 2 }) = some s ∧
    OptionTypes (aliasOptions { outbound := 2 }) ∧ outboundOption (aliasOptions { outbound := 2 }) = 2 ∧
    ReachableBy ByTypes s.client c ∧ aliasesSent c.ops.log = [([97], some 1), ([98], some 2), ([], some 1)] := by
  have h : aliasRun (aliasOptions { outbound := 2 }) (connectWith { topicAliasMaximum := some 5 } ++
      publishAll [([97], some 7), ([98], none), ([97], none)])
      (fun c => decide (aliasesSent c.ops.log = [([97], some 1), ([98], some 2), ([], some 1)])) = true := by
    decide +kernel
  unfold aliasRun at h
  split at h
  · cases h
  · rename_i s hs
    obtain ⟨c, hr, hx⟩ := run_test_by (allowed := ByTypes) h (by
      intro e he
      simp only [connectWith, publishAll, publishTo, List.map_cons, List.map_nil, List.cons_append, List.nil_append,
        List.mem_cons, List.not_mem_nil, or_false] at he
      rcases he with rfl | rfl | rfl | rfl | rfl | rfl | rfl | rfl | rfl | rfl
      case inr.inr.inr.inr.inr.inr.inl => exact ⟨by simp [OptLt], by simp [OptLt]⟩
      case inr.inr.inr.inr.inr.inr.inr.inl => exact ⟨by simp [OptLt], by simp [OptLt]⟩
      case inr.inr.inr.inr.inr.inr.inr.inr.inl => exact ⟨by simp [OptLt], by simp [OptLt]⟩
      all_goals trivial)
    refine ⟨s, c, hs, ⟨?_, ?_⟩, rfl, hr, by simpa using hx⟩
    · rintro v hv
      cases hv
      exact ⟨by decide, by simp [OptLt], by simp [OptLt], by simp [OptLt], by simp [OptLt], by simp [OptLt], by simp [Opt]⟩
    · rintro a ha
      cases ha
      decide

end Mqtt.Props
