import Verif.Lemmas.ProtocolAdapter
import Verif.Lemmas.Client311Spec

/-!
C73: the adapter of the request-response client reports each operation once and rightly, and is silent once terminated.

Violated: callbacks are not always made on the event loop of the client; `connect` of the 3.1.1 client completes
operations of an earlier session on the thread that calls it.
-/
namespace Mqtt.Props
open Mqtt.Rrpa

variable {v : Version} {a : Rrpa.Adapter}

/-- Whatever the client does, no freed memory is used. -/
theorem C73_safe (h : Rrpa.Reachable v a) {e : Rrpa.Event} (he : Rrpa.Enabled v a e) : ∃ b, Rrpa.step a e = .ok b :=
  h.inv.safe he

/-- A subscribe or unsubscribe has been reported as often as the client had completed it by the time of the termination
callback: never or once. -/
theorem C73_subscription (h : Rrpa.Reachable v a) {uid : Nat} {k : Rrpa.Kind} (hk : Trace.submitted uid k ∈ a.log)
    (hp : k ≠ .publish) : reports a.log uid = answers (early a.log) uid ∧ answers a.log uid ≤ 1 := by
  constructor
  · rw [h.inv.reported uid k hk, if_neg fun e => hp e.1]
  · rw [h.inv.answered uid k hk]; split <;> omega

/-- A publish has been reported once if the client has completed it or the adapter has terminated, else not. -/
theorem C73_publish (h : Rrpa.Reachable v a) {uid : Nat} (hk : Trace.submitted uid .publish ∈ a.log) :
    reports a.log uid = if Trace.terminated ∈ a.log then 1 else answers a.log uid := by
  rw [h.inv.reported uid _ hk]
  by_cases ht : Trace.terminated ∈ a.log
  · rw [if_pos ⟨rfl, h.inv.ended.1 ht⟩, if_pos ht]
  · rw [if_neg fun e => ht (h.inv.ended.2 e.2), if_neg ht, early_self ht]

/-- Nothing is reported of what was refused or never asked for. -/
theorem C73_unasked (h : Rrpa.Reachable v a) {uid : Nat} (hk : ∀ k, Trace.submitted uid k ∉ a.log) : reports a.log uid = 0 :=
  (h.inv.asked uid hk).2

/-- Each callback for an operation says the right thing: it comes when the client completes that operation, has its
filter, success only if the server granted it, the client's error if it had one, and the right retryability; or it is the
report that a publish is still incomplete when the adapter that was to be destroyed terminates. -/
theorem C73_right (h : Rrpa.Reachable v a) {pre post : List Trace} {t : Trace} {uid : Nat} (e : a.log = pre ++ t :: post)
    (ht : isReport uid t = true) :
    (∃ kind x before error retryable, pre = before ++ [.answered uid x] ∧ Trace.submitted uid kind ∈ before ∧
      x.answers v kind = true ∧ Reports kind uid error retryable t ∧ (error = .success ↔ x.granted) ∧
      (x.error ≠ .success → error = x.error) ∧ (retryable = true ↔ x.transient)) ∨
    (t = .published uid .shutDown ∧ Trace.submitted uid .publish ∈ pre ∧ Trace.destroying ∈ pre ∧ answers pre uid = 0) := by
  obtain ⟨_, h | h⟩ := h.caused pre t post uid e ht
  · obtain ⟨kind, x, before, e1, e2, e3, _, e5⟩ := h
    exact .inl ⟨kind, x, before, _, _, e1, e2, e3, e5, report_granted x, report_error x, report_transient x⟩
  · exact .inr h

/-- After the termination callback none of the callbacks comes, and it comes only after the adapter was destroyed. -/
theorem C73_quiet (h : Rrpa.Reachable v a) {pre post : List Trace} (e : a.log = pre ++ .terminated :: post) :
    (∀ t ∈ post, isCallback t = false) ∧ Trace.destroying ∈ a.log := by
  refine ⟨h.quiet pre post e, Inv.destroying h ?_⟩
  have hd := h.inv.ended.1 (by rw [e]; simp)
  rcases h.inv.phase with ⟨_, _, p3, p4, _⟩ | ⟨_, _, p3, p4, _⟩ | ⟨_, _, p3, p4, _⟩ | ⟨_, _, p3, p4, _⟩ | ⟨_, _, p3, p4, _⟩ <;>
    first | exact p3 | (rw [hd] at p4; cases p4)

/-- An adapter that was destroyed terminates when the event loop has run its tasks, of which there are at most two. -/
theorem C73_ends (h : Rrpa.Reachable v a) (hd : a.dying = true) (hn : Trace.terminated ∉ a.log) :
    a.tasks ≠ [] ∧ ∀ b, Rrpa.step a .run = .ok b → Trace.terminated ∈ b.log ∨
      (b.tasks ≠ [] ∧ ∀ c, Rrpa.step b .run = .ok c → Trace.terminated ∈ c.log) := by
  have hal : a.alive = true := by
    cases e : a.alive with
    | true => rfl
    | false => exact absurd (h.inv.ended.2 e) hn
  have fin : ∀ {b c : Rrpa.Adapter}, b.tasks = [.finish] → Rrpa.step b .run = .ok c → Trace.terminated ∈ c.log := by
    intro b c ht hs
    simp only [Rrpa.step, Rrpa.Adapter.run, ht, Rrpa.Adapter.terminate] at hs
    split at hs
    · cases hs
    · cases hs; simp
  rcases h.inv.phase with ⟨_, _, p3, _, _⟩ | ⟨p1, p2, p3, _, _⟩ | ⟨_, _, p3, _, _⟩ | ⟨p1, _, _, _, _⟩ | ⟨_, _, _, p4, _⟩
  · rw [hd] at p3; cases p3
  · refine ⟨by simp [p1], fun b hs => .inr ?_⟩
    simp only [Rrpa.step, Rrpa.Adapter.run, p1] at hs
    cases hs
    exact ⟨by simp [Rrpa.Adapter.releaseListener, p2], fun c hs => fin (by simp [Rrpa.Adapter.releaseListener, p2]) hs⟩
  · rw [hd] at p3; cases p3
  · exact ⟨by simp [p1], fun b hs => .inl (fin p1 hs)⟩
  · rw [hal] at p4; cases p4

/-- Publishes and changes of the connection are passed on while the listener is attached, that is from its first task
until the adapter terminates. -/
theorem C73_passed (h : Rrpa.Reachable v a) :
    (a.attached = true ↔ Task.begin ∉ a.tasks ∧ Trace.terminated ∉ a.log) ∧
    ∀ b, (∀ topic payload, Rrpa.step a (.publish topic payload) = .ok b →
        b.log = a.log ++ if a.attached then [.incoming topic payload] else []) ∧
      (∀ joined, Rrpa.step a (.news (.success joined)) = .ok b →
        b.log = a.log ++ if a.attached then [.connection true joined] else []) ∧
      (∀ n, n = .interrupted ∨ n = .disconnected → Rrpa.step a (.news n) = .ok b →
        b.log = a.log ++ if a.attached then [.connection false false] else []) ∧
      (Rrpa.step a (.news .none) = .ok b → b.log = a.log) := by
  have tell : ∀ b n, Rrpa.step a (.news n) = .ok b → b.log = a.log ++ if a.attached then n.tell else [] := by
    intro b n hs
    simp only [Rrpa.step] at hs
    split at hs
    · next ha => cases hs; simp at ha; simp [ha]
    · next ha =>
      split at hs
      · cases hs
      · cases hs; simp at ha; simp [ha]
  constructor
  · rw [h.inv.ended]
    rcases h.inv.phase with ⟨p1, _, _, p4, p5⟩ | ⟨p1, _, _, p4, p5⟩ | ⟨p1, _, _, p4, p5⟩ | ⟨p1, _, _, p4, p5⟩ |
      ⟨p1, _, _, p4, p5⟩ <;> simp [p1, p4, p5]
  · intro b
    refine ⟨fun topic payload hs => ?_, fun j hs => by rw [tell _ _ hs]; rfl, ?_, fun hs => by rw [tell _ _ hs]; simp [News.tell]⟩
    · simp only [Rrpa.step] at hs
      split at hs
      · next ha => cases hs; simp at ha; simp [ha]
      · next ha =>
        split at hs
        · cases hs
        · cases hs; simp at ha; simp [ha]
    · rintro n (rfl | rfl) hs <;> (rw [tell _ _ hs]; rfl)

/-- Nothing is kept for an operation that the client has completed. -/
theorem C73_freed (h : Rrpa.Reachable v a) {uid : Nat} {k : Rrpa.Kind} (hk : Trace.submitted uid k ∈ a.log)
    (ha : answers a.log uid = 1) : a.ops.get uid = none := by
  rw [h.inv.answered uid k hk] at ha
  have hg : uid ∉ a.given := fun e => by rw [if_pos e] at ha; cases ha
  rw [h.inv.given] at hg
  simpa using hg

/-- The 3.1.1 client completes a publish of an earlier session on the thread that calls `connect`. -/
theorem C73_violated_thread : ∃ c c' uid, Client311.Reachable (fun _ _ => True) c ∧ c.busy.inConnect = true ∧
    (∃ id size, Client311.Trace.accepted uid id (.publish 1) size ∈ c.log) ∧
    Client311.step c .advance = .ok c' ∧ c'.log = c.log ++ [.completed uid .cleanSession] := by
  refine ⟨Client311.after [.create (.publish 1) 10, .connect true],
    Client311.after [.create (.publish 1) 10, .connect true, .advance], 0, Client311.reachable_after _, by decide +kernel,
    ⟨1, 10, by decide +kernel⟩, rfl, by decide +kernel⟩

/-- `Enabled` as a test. -/
def C73_can (v : Version) (a : Rrpa.Adapter) : Rrpa.Event → Bool
  | .submit .. => !a.dying
  | .complete uid x => a.given.contains uid && a.log.all fun t => match t with
      | .submitted u k => u != uid || x.answers v k
      | _ => true
  | .destroy => !a.dying
  | .run => !a.tasks.isEmpty
  | _ => true

def C73_play (v : Version) (a : Rrpa.Adapter) (e : Rrpa.Event) : Rrpa.Adapter :=
  if C73_can v a e then (match Rrpa.step a e with | .ok b => b | .error _ => a) else a

theorem C73_can_enabled {e : Rrpa.Event} (h : C73_can v a e = true) : Rrpa.Enabled v a e := by
  cases e with
  | submit k ok => simpa [C73_can, Rrpa.Enabled] using h
  | complete uid x =>
    simp only [C73_can, Bool.and_eq_true, List.contains_iff_mem, List.all_eq_true] at h
    refine ⟨h.1, fun k hk => ?_⟩
    have := h.2 _ hk
    simpa using this
  | destroy => simpa [C73_can, Rrpa.Enabled] using h
  | run => simpa [C73_can, Rrpa.Enabled] using h
  | news n => trivial
  | publish t p => trivial

theorem C73_play_reachable (es : List Rrpa.Event) (h : Rrpa.Reachable v a) : Rrpa.Reachable v (es.foldl (C73_play v) a) := by
  induction es generalizing a with
  | nil => exact h
  | cons e es ih =>
    refine ih ?_
    unfold C73_play
    split
    · next hc =>
      split
      · next b hs => exact .step h (C73_can_enabled hc) hs
      · exact h
    · exact h

/-- Three operations: one granted, one refused by the server, one incomplete when the adapter terminates and completed
later. -/
def C73_history : List Rrpa.Event :=
  [.run, .submit (.subscribe [97]) true, .submit (.subscribe [98]) true, .submit .publish true, .submit .publish false,
   .complete 1 (.subscribe5 (some [135]) .success), .complete 0 (.subscribe5 (some [1]) .success), .publish [97] [1],
   .destroy, .run, .complete 2 (.publish5 (some 0) .success), .publish [97] [2]]

example : Rrpa.Reachable .v5 (C73_history.foldl (C73_play .v5) {}) := C73_play_reachable _ .new

example : (C73_history.foldl (C73_play .v5) {}).log =
    [.submitted 0 (.subscribe [97]), .submitted 1 (.subscribe [98]), .submitted 2 .publish, .refused .publish,
     .answered 1 (.subscribe5 (some [135]) .success), .subscription 1 true [98] .failingReason false,
     .answered 0 (.subscribe5 (some [1]) .success), .subscription 0 true [97] .success true, .incoming [97] [1],
     .destroying, .published 2 .shutDown, .terminated, .answered 2 (.publish5 (some 0) .success)] := by decide +kernel

end Mqtt.Props
