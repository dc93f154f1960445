import Verif.Spec.Aliases5
import Verif.Lemmas.Client5Stream
import Verif.Lemmas.TopicAliasLru

/-!
The aliases the MQTT 5 client sends.
-/
namespace Mqtt.Client5

open Mqtt.V5 Mqtt.Spec Mqtt.Spec5 Mqtt.Props

theorem granted_one (log : List Effect) (e : Effect) : granted (log ++ [e]) = grantedOne (granted log) e := by simp [granted]

theorem published_one (log : List Effect) (e : Effect) : published (log ++ [e]) = publishedOne (published log) e := by
  simp [published]

theorem serve_max {s s' : AliasServer} {w : Bytes} {p : Packet} (h : serve s w = some (s', p)) : s'.max = s.max := by
  unfold serve at h
  split at h
  · cases h
  · simp only [Option.map_eq_some_iff, Prod.mk.injEq] at h
    obtain ⟨⟨s1, t⟩, h1, h2, _⟩ := h
    rw [← h2]
    exact (receive_topic h1).2.1
  · simp only [Option.some.injEq, Prod.mk.injEq] at h
    rw [h.1]

/-- The other end allows what it granted. -/
theorem hearing_max (log : List Effect) : (hearing log).max = granted log := by
  induction log using snoc_rec with
  | hnil => rfl
  | h log e ih =>
    rw [hearing_one, granted_one]
    cases e with
    | started u p w =>
      simp only [hear, grantedOne]
      rw [← ih]
      cases hs : serve (hearing log) w with
      | none => rfl
      | some x => exact serve_max (p := x.2) (by rw [hs]; rfl)
    | connected st => rfl
    | _ => exact ih

theorem byUse_nodup (ts : List Bytes) : (byUse ts).Nodup := by
  induction ts using snoc_rec with
  | hnil => simp [byUse]
  | h ts t ih =>
    rw [TopicAlias.byUse_one]
    exact TopicAlias.nodup_use ih t

/-- The cache of automatic aliases holds the topics used last, as many as the server allows. -/
theorem lru_cache {a : List Effect} (h : Each (Streams .lru) a) (hrep : AllRep a) :
    (granted a = 0 ∧ resolving .lru a = .lru none 0) ∨
    (0 < granted a ∧ ∃ c, resolving .lru a = .lru (some c) (granted a) ∧
      (c.map (·.1)).reverse = (byUse (published a)).take (granted a)) := by
  induction a using snoc_rec with
  | hnil => exact .inl ⟨rfl, rfl⟩
  | h a e ih =>
    have ih := ih (fun x y z hb => h x y (z ++ [e]) (by rw [hb]; simp)) hrep.left
    rw [granted_one, published_one, resolving_one]
    cases e with
    | connected st =>
      simp only [grantedOne, publishedOne, resolvingOne, TopicAlias.Outbound.new, TopicAlias.Outbound.reset]
      rcases Nat.eq_zero_or_pos st.topicAliasMaximumToServer with h0 | h0
      · exact .inl ⟨h0, by simp [h0]⟩
      · exact .inr ⟨h0, [], by rw [if_pos h0], by simp [byUse]⟩
    | started u p w =>
      by_cases hp : isPublish p = true
      · cases p with
        | publish v =>
          simp only [grantedOne, publishedOne, resolvingOne]
          obtain ⟨_, q, r', _, _, hb⟩ := (h a (.started u (.publish v) w) [] (by simp)).2.2.2.2 u v w rfl hrep.left
            (hrep u (.publish v) w (by simp))
          rw [hb]
          simp only
          rcases ih with ⟨h0, h1⟩ | ⟨h0, c, h1, h2⟩
          · refine .inl ⟨h0, ?_⟩
            rw [h1] at hb
            simp only [TopicAlias.beginPublish, TopicAlias.Outbound.resolve, ne_eq, not_true_eq_false, if_false] at hb
            split at hb
            · injection hb with hb; exact hb.symm
            · cases hb
          · refine .inr ⟨h0, ?_⟩
            rw [h1] at hb
            simp only [TopicAlias.beginPublish, TopicAlias.Outbound.resolve, if_neg (Nat.ne_of_gt h0)] at hb
            cases hx : TopicAlias.resolveLru c (granted a) v.topic with
            | none => rw [hx] at hb; cases hb
            | some y =>
              obtain ⟨r1, n, t'⟩ := y
              rw [hx] at hb
              obtain ⟨c', g1, g2, _⟩ := TopicAlias.lru_keys h0 (byUse_nodup _) h2 hx
              have hr : r' = r1 := by
                simp only at hb
                repeat' split at hb
                all_goals first
                  | (injection hb with hb; exact hb.symm)
                  | cases hb
              rw [hr, g1, TopicAlias.byUse_one]
              exact ⟨c', rfl, g2⟩
        | _ => cases hp
      · have hp : isPublish p = false := by simpa using hp
        rw [resolving_other _ _ hp]
        have h1 : publishedOne (published a) (.started u p w) = published a := by
          revert hp; cases p <;> first | exact fun _ => rfl | (intro hp; cases hp)
        rw [h1]
        exact ih
    | _ => exact ih

/-! ## Aliases of the user do not matter -/

/-- A resolver of a behavior. -/
def Kind : TopicAlias.Behavior → TopicAlias.Outbound → Prop
  | .disabled, .disabled => True
  | .manual, .manual _ => True
  | .lru, .lru .. => True
  | _, _ => False

theorem resolving_kind (b : TopicAlias.Behavior) (log : List Effect) : Kind b (resolving b log) := by
  induction log using snoc_rec with
  | hnil => cases b <;> trivial
  | h log e ih =>
    rw [resolving_one]
    cases e with
    | connected st => cases b <;> trivial
    | started u p w =>
      cases p with
      | publish v =>
        simp only [resolvingOne]
        split
        · rename_i r' t' a' hb
          generalize resolving b log = r at *
          cases r with
          | disabled =>
            have : r' = .disabled := by
              simp only [TopicAlias.beginPublish, TopicAlias.Outbound.resolve] at hb
              repeat' split at hb
              all_goals simp_all
            rw [this]; exact ih
          | manual al =>
            have : ∃ al', r' = .manual al' := by
              simp only [TopicAlias.beginPublish, TopicAlias.Outbound.resolve, TopicAlias.resolveManual] at hb
              split at hb
              · cases hb
              · rename_i x n y hx
                have : ∃ al', x = .manual al' := by
                  repeat' split at hx
                  all_goals first
                    | cases hx; done
                    | (simp only [Option.some.injEq, Prod.mk.injEq] at hx; exact ⟨_, hx.1.symm⟩)
                obtain ⟨al', rfl⟩ := this
                repeat' split at hb
                all_goals first
                  | (injection hb with hb; exact ⟨_, hb.symm⟩)
                  | cases hb
            obtain ⟨al', rfl⟩ := this
            revert ih; cases b <;> exact id
          | lru d m =>
            have : ∃ d' m', r' = .lru d' m' := by
              simp only [TopicAlias.beginPublish, TopicAlias.Outbound.resolve, TopicAlias.resolveLru] at hb
              split at hb
              · cases hb
              · rename_i x n y hx
                have : ∃ d' m', x = .lru d' m' := by
                  repeat' split at hx
                  all_goals first
                    | cases hx; done
                    | (simp only [Option.some.injEq, Prod.mk.injEq] at hx; exact ⟨_, _, hx.1.symm⟩)
                obtain ⟨d', m', rfl⟩ := this
                repeat' split at hb
                all_goals first
                  | (injection hb with hb; exact ⟨_, _, hb.symm⟩)
                  | cases hb
            obtain ⟨d', m', rfl⟩ := this
            revert ih; cases b <;> exact id
        · exact ih
      | _ => exact ih
    | _ => exact ih

theorem beginPublish_any {b : TopicAlias.Behavior} {r : TopicAlias.Outbound} (hb : b ≠ .manual) (hk : Kind b r) (t : Bytes)
    (x y : Option Nat) : TopicAlias.beginPublish r t x = TopicAlias.beginPublish r t y := by
  cases r with
  | manual al => cases b <;> first | exact absurd rfl hb | cases hk
  | _ => rfl

/-- What the resolver does to topics, for resolvers that ignore the aliases of the user. -/
def resolvingTopics (b : TopicAlias.Behavior) (m : Nat) (ts : List Bytes) : TopicAlias.Outbound :=
  ts.foldl (fun r t => match TopicAlias.beginPublish r t none with | .ok r' _ _ => r' | _ => r)
    ((TopicAlias.Outbound.new b).reset m)

theorem resolving_topics {b : TopicAlias.Behavior} (hb : b ≠ .manual) (log : List Effect) :
    resolving b log = resolvingTopics b (granted log) (published log) := by
  induction log using snoc_rec with
  | hnil => cases b <;> first | rfl | exact absurd rfl hb
  | h log e ih =>
    rw [resolving_one, granted_one, published_one]
    cases e with
    | connected st => rfl
    | started u p w =>
      cases p with
      | publish v =>
        simp only [resolvingOne, grantedOne, publishedOne]
        rw [beginPublish_any hb (resolving_kind b log) v.topic v.topicAlias none, ih]
        simp only [resolvingTopics, List.foldl_append, List.foldl_cons, List.foldl_nil]
        rfl
      | _ => exact ih
    | _ => exact ih

end Mqtt.Client5
