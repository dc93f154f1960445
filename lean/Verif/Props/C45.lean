import Verif.Lemmas.RrClientPublish
import Verif.Lemmas.RrClientHistory
import Verif.Props.C44
import Batteries.Data.List.Perm

/-!
C45: if every subscription a request needs is established, its message is published.

`C45_partial` is the claim for requests whose filters are distinct and were not established when the request acquired them,
`C45_ready_partial` for requests whose filters were all established then. In between the claim is false
(`C45_violated`): the client counts one success for every filter (request_response_client.c:624-649, 1281), but a filter
that is established already never reports one. `C45_violated_repeated` is the case of a filter that is listed twice.
-/
namespace Mqtt.Props

open Mqtt.Rr (broker needs)
open Mqtt.RrClient

/-- The filter was not established when the request acquired it. -/
def rrNew (log : List Rr.Trace) (id : Nat) (f : Bytes) : Prop :=
  ∀ a b k, log = a ++ .acquired id f k :: b → broker a f = false

/-- The filter was established when the request acquired it. -/
def rrReady (log : List Rr.Trace) (id : Nat) (f : Bytes) : Prop :=
  ∀ a b k, log = a ++ .acquired id f k :: b → broker a f = true

/-- A request that is not completed is present. -/
theorem rr_present {cfg : RrClient.Config} {c : Client} {id : Nat} {r : Request}
    (h : RrClient.Reachable cfg anything c) (hs : Trace.submitted id r ∈ c.log) (hc : completions c.log id = 0) :
    ∃ op, c.ops.get id = some op ∧ op.body = .request r := by
  have hid := (reachable_inv h (strict := false) (by simp)).ids id
  unfold IdOk at hid
  cases hg : c.ops.get id with
  | none =>
    rw [hg] at hid
    have := hid.2.2.atLeast ⟨r, hs⟩
    omega
  | some op =>
    rw [hg] at hid
    obtain ⟨_, _, hid⟩ := hid
    rcases Body.cases op.body with ⟨f', hb⟩ | ⟨r', hb⟩
    · simp only [hb] at hid
      exact absurd ⟨r, hs⟩ hid.1
    · simp only [hb] at hid
      have := hid.2.1 r hs
      subst this
      exact ⟨op, rfl, hb⟩

/-- A request that depends on a subscription has been taken from the queue. -/
theorem rr_placed {cfg : RrClient.Config} {c : Client} {id : Nat} {r : Request} {f : Bytes}
    (h : RrClient.Reachable cfg anything c) (hp : c.phase = .active) (hs : Trace.submitted id r ∈ c.log)
    (hn : needs c.manager.log id f = true) (hc : completions c.log id = 0) :
    ∃ op, c.ops.get id = some op ∧ op.body = .request r ∧ op.inTables = true ∧ PubOk [] c id op r ∧
      ∃ rec, c.manager.records.get f = some rec ∧ rec.kind = .request ∧ id ∈ rec.listeners ∧
        (broker c.manager.log f = true → rec.subscribed = true) := by
  have hinv := reachable_inv h (strict := false) (by simp)
  obtain ⟨hr, hcl⟩ := hinv.manager hp
  have hpi := (Rr.reachable_minv hr).usable hcl f
  obtain ⟨rec, e1, e2⟩ := hpi.needed id hn
  have hk := hinv.kinds hp (f, rec) (AMap.get_some_mem e1) id e2
  obtain ⟨op, hg, hb⟩ := rr_present h hs hc
  obtain ⟨k1, k2⟩ := hk.2.2 op hg
  have hpub := (reachable_pub h).ops (by rw [hp]; simp) id op r (fun x => x) hg hb hc
  refine ⟨op, hg, hb, ?_, hpub, rec, e1, ?_, e2, ?_⟩
  · cases hx : op.inTables with
    | true => rfl
    | false => exact absurd ((hpub.before hx).2.2.2.2 k2) hk.2.1
  · rw [hb] at k1
    exact k1.symm
  · intro hbr
    obtain ⟨rec', x1, x2⟩ := hpi.server hbr
    rw [e1] at x1
    cases x1
    exact x2

/-- **C45**, partly: all subscriptions of a request are established now, none of them was when the request acquired it, and
no status event waits to be handled. Then the request is published or completed. -/
theorem C45_partial {cfg : RrClient.Config} {c : Client} {id : Nat} {r : Request}
    (h : RrClient.Reachable cfg anything c) (hp : c.phase = .active) (hs : Trace.submitted id r ∈ c.log)
    (hnd : r.filters.Nodup) (hn : ∀ f ∈ r.filters, needs c.manager.log id f = true)
    (hb : ∀ f ∈ r.filters, broker c.manager.log f = true) (hnew : ∀ f ∈ r.filters, rrNew c.manager.log id f)
    (hw : ∀ s, Task.status s ∈ c.tasks → s.op ≠ id) :
    Trace.published id r.topic r.payload ∈ c.log ∨ 0 < completions c.log id := by
  by_cases hc : completions c.log id = 0
  · left
    have hinv := reachable_inv h (strict := false) (by simp)
    have hw0 : waiting ([] ++ c.tasks) id = 0 := by
      unfold waiting
      rw [List.countP_eq_zero]
      intro t ht
      cases t with
      | status s =>
        have := hw s (by simpa using ht)
        simp [isSuccessTask, this]
      | _ => simp [isSuccessTask]
    have htold : ∀ f ∈ r.filters, Rr.Trace.status ⟨.subscribeSuccess, f, id⟩ ∈ c.manager.log := by
      intro f hf
      obtain ⟨op, _, _, _, _, rec, e1, e2, e3, e4⟩ := rr_placed h hp hs (hn f hf) hc
      have hfed := ((Rr.reachable_fed (hinv.manager hp).1).get e1 (e4 (hb f hf))).2 e2 id e3
      rcases hfed with hfed | ⟨a, b, k, x1, x2⟩
      · exact hfed
      · rw [hnew f hf a b k x1] at x2
        cases x2
    have hlen : r.filters.length ≤ Rr.told c.manager.log id := by
      have h1 : (r.filters.map fun f => Rr.Trace.status ⟨.subscribeSuccess, f, id⟩).Nodup :=
        List.pairwise_map.2 (hnd.imp (by
          intro a b hab e
          apply hab
          injection e with e
          injection e))
      have h2 : (r.filters.map fun f => Rr.Trace.status ⟨.subscribeSuccess, f, id⟩) ⊆
          c.manager.log.filter (Rr.isSuccess id) := by
        intro e he
        obtain ⟨f, hf, rfl⟩ := List.mem_map.1 he
        exact List.mem_filter.2 ⟨htold f hf, by simp [Rr.isSuccess]⟩
      have h3 := (List.subperm_of_subset h1 h2).length_le
      rw [List.length_map, ← List.countP_eq_length_filter] at h3
      exact h3
    have hall : ∀ op, PubOk [] c id op r → op.inTables = true → Trace.published id r.topic r.payload ∈ c.log := by
      intro op p hi
      rcases (p.entered hi).2 with hx | ⟨_, x2, x3, _⟩
      · exact hx
      · omega
    cases hf : r.filters with
    | nil =>
      obtain ⟨op, o1, o2⟩ := rr_present h hs hc
      have p := (reachable_pub h).ops (by rw [hp]; simp) id op r (fun x => x) o1 o2 hc
      cases hx : op.inTables with
      | false => exact absurd hf (p.before hx).2.1
      | true => exact hall op p hx
    | cons f fs =>
      obtain ⟨op, _, _, o3, o4, _⟩ := rr_placed h hp hs (hn f (by rw [hf]; simp)) hc
      exact hall op o4 o3
  · right; omega

/-- **C45**, partly: all subscriptions of a request were established when the request acquired them. Then the request is
published or completed. -/
theorem C45_ready_partial {cfg : RrClient.Config} {c : Client} {id : Nat} {r : Request}
    (h : RrClient.Reachable cfg anything c) (hp : c.phase = .active) (hs : Trace.submitted id r ∈ c.log)
    {f : Bytes} (hn : needs c.manager.log id f = true) (hr : ∀ f ∈ r.filters, rrReady c.manager.log id f) :
    Trace.published id r.topic r.payload ∈ c.log ∨ 0 < completions c.log id := by
  by_cases hc : completions c.log id = 0
  · left
    obtain ⟨op, _, _, o3, o4, _⟩ := rr_placed h hp hs hn hc
    rcases (o4.entered o3).2 with hx | ⟨_, _, _, g, hg, a, b, k, x1, x2⟩
    · exact hx
    · rw [hr g hg a b k x1] at x2
      cases x2
  · right; omega

/-- A request for the topic `r` with a response on `t`. -/
def rrcWith (filters : List Bytes) (token : Bytes) : Request :=
  { filters := filters, paths := [⟨[116], [116]⟩], token := token, topic := [114], payload := [1] }

/-- A request with two filters is sent; then a second one with the same filters. -/
def rrcBoth : History :=
  [ (1, .task {} 0), (1, .submit (rrcWith [[97], [98]] [1])), (1, .task {} 0), (1, .service {} []),
    (2, .finished {} [97] .subscribe true false), (2, .finished {} [98] .subscribe true false),
    (3, .task {} 0), (3, .task {} 0),
    (4, .submit (rrcWith [[97], [98]] [2])), (4, .task {} 0), (4, .service {} []) ]

/-- Whether a filter was established when it was acquired, for each acquisition. -/
def rrcStale (id : Nat) (f : Bytes) : List Rr.Trace → List Rr.Trace → List Bool
  | _, [] => []
  | a, e :: b =>
    (match e with
      | .acquired i g _ => if i = id ∧ g = f then [broker a f] else []
      | _ => []) ++ rrcStale id f (a ++ [e]) b

theorem rrcStale_mem {id : Nat} {f : Bytes} {k : Rr.Kind} {b : List Rr.Trace} : ∀ (x a : List Rr.Trace),
    broker (x ++ a) f ∈ rrcStale id f x (a ++ .acquired id f k :: b) := by
  intro x a
  induction a generalizing x with
  | nil => simp [rrcStale]
  | cons e a ih =>
    simp only [List.cons_append, rrcStale, List.mem_append]
    refine .inr ?_
    have := ih (x ++ [e])
    simpa using this

theorem rrNew_of {log : List Rr.Trace} {id : Nat} {f : Bytes} (h : rrcStale id f [] log = [false]) : rrNew log id f := by
  intro a b k e
  have := rrcStale_mem (id := id) (f := f) (k := k) (b := b) [] a
  rw [← e, h] at this
  simpa using this

theorem rrReady_of {log : List Rr.Trace} {id : Nat} {f : Bytes} (h : rrcStale id f [] log = [true]) :
    rrReady log id f := by
  intro a b k e
  have := rrcStale_mem (id := id) (f := f) (k := k) (b := b) [] a
  rw [← e, h] at this
  simpa using this

/-- The hypotheses of `C45_partial` hold for the first request, those of `C45_ready_partial` for the second. Both are
published. -/
example : ∃ c, RrClient.Reachable rrcCfg anything c ∧ c.phase = .active ∧
    Trace.submitted 1 (rrcWith [[97], [98]] [1]) ∈ c.log ∧ Trace.submitted 2 (rrcWith [[97], [98]] [2]) ∈ c.log ∧
    (∀ f ∈ [[97], [98]], needs c.manager.log 1 f = true ∧ broker c.manager.log f = true ∧ rrNew c.manager.log 1 f) ∧
    (∀ f ∈ [[97], [98]], needs c.manager.log 2 f = true ∧ rrReady c.manager.log 2 f) ∧ c.tasks = [] ∧
    Trace.published 1 [114] [1] ∈ c.log ∧ Trace.published 2 [114] [1] ∈ c.log := by
  refine ⟨(play rrcCfg {} rrcBoth).getD {}, play_anything .new (h := rrcBoth) (by decide +kernel)
    (eq_some_getD _ (by decide +kernel)), by decide +kernel, by decide +kernel, by decide +kernel, ?_, ?_, by decide +kernel,
    by decide +kernel, by decide +kernel⟩
  · intro f hf
    simp only [List.mem_cons, List.not_mem_nil, or_false] at hf
    rcases hf with rfl | rfl
    · exact ⟨by decide +kernel, by decide +kernel, rrNew_of (by decide +kernel)⟩
    · exact ⟨by decide +kernel, by decide +kernel, rrNew_of (by decide +kernel)⟩
  · intro f hf
    simp only [List.mem_cons, List.not_mem_nil, or_false] at hf
    rcases hf with rfl | rfl
    · exact ⟨by decide +kernel, rrReady_of (by decide +kernel)⟩
    · exact ⟨by decide +kernel, rrReady_of (by decide +kernel)⟩

/-- A second request with the same two filters is taken from the queue between the two acknowledgements. -/
def rrcBetween : History :=
  [ (1, .task {} 0), (1, .submit (rrcWith [[97], [98]] [1])), (1, .task {} 0), (1, .service {} []),
    (2, .finished {} [97] .subscribe true false), (2, .task {} 0),
    (3, .submit (rrcWith [[97], [98]] [2])), (3, .task {} 0), (3, .service {} []),
    (4, .finished {} [98] .subscribe true false), (4, .task {} 0), (4, .task {} 0) ]

/-- The first request is answered, nothing else happens. -/
def rrcRest : History :=
  [ (5, .publishDone 1 true), (6, .publish ⟨[116], [2], some (.object [([116], .string [1])])⟩), (6, .task {} 0),
    (60000000001, .service {} []), (60000000003, .service {} [2]) ]

/-- **C45 is violated**: all subscriptions of a request are established and every event has been handled, but the request is
not published; it times out. -/
theorem C45_violated : ∃ cfg c c' id r, RrClient.Reachable cfg anything c ∧ c.phase = .active ∧
    Trace.submitted id r ∈ c.log ∧ r.filters.Nodup ∧ c.manager.connected = true ∧
    (∀ f ∈ r.filters, needs c.manager.log id f = true ∧ broker c.manager.log f = true) ∧ c.tasks = [] ∧
    Later cfg anything c c' ∧ Trace.published id r.topic r.payload ∉ c'.log ∧ Trace.failed id .timeout ∈ c'.log := by
  refine ⟨rrcCfg, (play rrcCfg {} rrcBetween).getD {}, (play rrcCfg ((play rrcCfg {} rrcBetween).getD {}) rrcRest).getD {},
    2, rrcWith [[97], [98]] [2], play_anything .new (h := rrcBetween) (by decide +kernel) (eq_some_getD _ (by decide +kernel)),
    by decide +kernel, by decide +kernel, by decide +kernel, by decide +kernel, by decide +kernel, by decide +kernel,
    play_later (h := rrcRest) .refl (by decide +kernel) (eq_some_getD _ (by decide +kernel)), by decide +kernel,
    by decide +kernel⟩

/-- A request that lists its filter twice. -/
def rrcRepeated : History :=
  [ (1, .task {} 0), (1, .submit (rrcWith [[97], [97]] [1])), (1, .task {} 0), (1, .service {} []),
    (2, .finished {} [97] .subscribe true false), (2, .task {} 0) ]

/-- **C45 is violated** for a request that lists a filter twice. -/
theorem C45_violated_repeated : ∃ cfg c c' id r, RrClient.Reachable cfg anything c ∧ c.phase = .active ∧
    Trace.submitted id r ∈ c.log ∧ c.manager.connected = true ∧
    (∀ f ∈ r.filters, needs c.manager.log id f = true ∧ broker c.manager.log f = true) ∧ c.tasks = [] ∧
    Later cfg anything c c' ∧ Trace.published id r.topic r.payload ∉ c'.log ∧ Trace.failed id .timeout ∈ c'.log := by
  refine ⟨rrcCfg, (play rrcCfg {} rrcRepeated).getD {},
    (play rrcCfg ((play rrcCfg {} rrcRepeated).getD {}) [(60000000001, .service {} [1])]).getD {},
    1, rrcWith [[97], [97]] [1], play_anything .new (h := rrcRepeated) (by decide +kernel) (eq_some_getD _ (by decide +kernel)),
    by decide +kernel, by decide +kernel, by decide +kernel, by decide +kernel, by decide +kernel,
    play_later (h := [(60000000001, .service {} [1])]) .refl (by decide +kernel) (eq_some_getD _ (by decide +kernel)),
    by decide +kernel, by decide +kernel⟩

end Mqtt.Props
