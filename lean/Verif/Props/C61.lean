import Verif.Lemmas.RrClientDue
import Verif.Props.C45

/-!
C61: a request is published at most once, with its topic and its payload, and only after each of its subscriptions has been in
place since the request acquired it.
-/
namespace Mqtt.Props

open Mqtt.Rr (broker)
open Mqtt.RrClient

/-- At some point after the request had acquired the filter the server had the subscription. -/
def rrServed (log : List Rr.Trace) (id : Nat) (f : Bytes) : Prop :=
  ∃ a b rest k, log = a ++ .acquired id f k :: b ++ rest ∧ broker (a ++ .acquired id f k :: b) f = true

/-- How often a request has been published. -/
def rrPublishes (log : List Trace) (id : Nat) : Nat :=
  log.countP fun e => match e with
    | .published i _ _ => i == id
    | _ => false

theorem rrServed_of {log : List Rr.Trace} {id : Nat} {f : Bytes} (ho : Rr.Once log) (h : Rr.Fed log f id) :
    rrServed log id f := by
  rcases h with h | ⟨a, b, k, e, hb⟩
  · obtain ⟨a, b, e⟩ := List.append_of_mem h
    obtain ⟨h1, h2⟩ := ho.2 a b f id e
    obtain ⟨x, hx, hx'⟩ := List.countP_pos_iff.1 h2
    cases x with
    | acquired j g k =>
      simp only [Rr.isAcquired, Bool.and_eq_true, beq_iff_eq] at hx'
      obtain ⟨rfl, rfl⟩ := hx'
      obtain ⟨u, v, e'⟩ := List.append_of_mem hx
      exact ⟨u, v, .status ⟨.subscribeSuccess, g, j⟩ :: b, k, by rw [e, e'], by rw [← e']; exact h1⟩
    | _ => cases hx'
  · refine ⟨a, [], b, k, by rw [e]; simp, ?_⟩
    rw [Rr.broker_one]
    exact hb

/-- **C61**: what has been published is the message of a request that was submitted, and each of its subscriptions has been in
place since the request acquired it. -/
theorem C61_ready {cfg : RrClient.Config} {c : Client} {id : Nat} {t p : Bytes} (h : RrClient.Reachable cfg anything c)
    (hp : Trace.published id t p ∈ c.log) :
    ∃ r, Trace.submitted id r ∈ c.log ∧ t = r.topic ∧ p = r.payload ∧ ∀ f ∈ r.filters, rrServed c.manager.log id f := by
  have hd := reachable_due h
  obtain ⟨r, h1, h2, h3⟩ := hd.pubs.content id t p hp
  exact ⟨r, h1, h2, h3, fun f hf => rrServed_of hd.once (hd.ready id t p r hp h1 f hf)⟩

/-- **C61**: no request is published twice. -/
theorem C61_once {cfg : RrClient.Config} {c : Client} (h : RrClient.Reachable cfg anything c) (id : Nat) :
    rrPublishes c.log id ≤ 1 :=
  (reachable_due h).pubs.single id

/-- Two requests share two subscriptions; the first one waits for them, the second one finds them. Both are published. -/
example : ∃ c, RrClient.Reachable rrcCfg anything c ∧ Trace.published 1 [114] [1] ∈ c.log ∧
    Trace.published 2 [114] [1] ∈ c.log ∧ rrPublishes c.log 1 = 1 ∧ rrPublishes c.log 2 = 1 :=
  ⟨(play rrcCfg {} rrcBoth).getD {}, play_anything .new (h := rrcBoth) (by decide +kernel)
    (eq_some_getD _ (by decide +kernel)), by decide +kernel, by decide +kernel, by decide +kernel, by decide +kernel⟩

/-- After the first of two acknowledgements the request is not published. -/
example : ∃ c, RrClient.Reachable rrcCfg anything c ∧ Trace.submitted 1 (rrcWith [[97], [98]] [1]) ∈ c.log ∧
    broker c.manager.log [97] = true ∧ c.tasks = [] ∧ rrPublishes c.log 1 = 0 :=
  ⟨(play rrcCfg {} (rrcBetween.take 6)).getD {}, play_anything .new (h := rrcBetween.take 6) (by decide +kernel)
    (eq_some_getD _ (by decide +kernel)), by decide +kernel, by decide +kernel, by decide +kernel, by decide +kernel⟩

end Mqtt.Props
