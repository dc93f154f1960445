import Verif.Lemmas.ManualAck5
import Verif.Lemmas.Client5Run
import Verif.Props.C37
import Verif.Props.C27

/-!
C92: every invocation of a manual publish acknowledgement is answered exactly once, with the right result.

Invocations of `aws_mqtt5_client_invoke_publish_acknowledgement` are numbered in the order their tasks run; `Book.calls` has the
controls they are for, `answersOf n` what the completion callback of invocation `n` has been called with.
-/
namespace Mqtt.Props
open Mqtt.Client5 Mqtt.ManualAck5

theorem results_length (u : Nat) (log : List Effect) : (results u log).length = log.countP (isCompletion u) := by
  induction log with
  | nil => rfl
  | cons e l ih =>
    rw [List.countP_cons, ← ih]
    cases e with
    | completed v p r a =>
      by_cases hv : v = u
      · simp [results, isCompletion, hv]
      · simp [results, isCompletion, hv]
    | _ => simp [results, isCompletion]

/-- The PUBACK that invocation `n` asked for is still in the hands of the client: made for it right after it was accepted, and
queued, being encoded, or written and not yet reported. -/
def Underway (c : Client) (b : Book) (n : Nat) : Prop :=
  ∃ ctl u id x y, b.calls[n]? = some ctl ∧ (u, n) ∈ b.ops ∧
    c.ops.log = x ++ .invoked ctl (some id) :: .pubackQueued u id :: y ∧
    ∃ op, op.uid = u ∧ op.packet = .puback { packetId := id } ∧
      (op ∈ c.ops.queued ∨ c.ops.current = some op ∨ op ∈ c.ops.writing)

/-- **C92, at most once**: no completion callback of an invocation is called twice. -/
theorem C92_at_most_once {cfg : Config} {c : Client} {b : Book} (h : ManualAck5.Reachable cfg c b) (n : Nat) :
    (answersOf n b).length ≤ 1 := by
  have hb := reachable_book h
  rcases Nat.lt_or_ge n b.calls.length with hn | hn
  · rcases hb.past n _ (List.getElem?_eq_getElem hn) with ⟨u, id, _, _, h3⟩ | ⟨_, h2 | h2⟩
    · rw [h3, results_length]
      exact C27_at_most_once h.client u
    · simp [h2]
    · simp [h2]
  · simp [(hb.future n hn).2]

/-- **C92, never early**: an invocation that has not been made is not answered. -/
theorem C92_not_early {cfg : Config} {c : Client} {b : Book} (h : ManualAck5.Reachable cfg c b) {n : Nat}
    (hn : b.calls.length ≤ n) : answersOf n b = [] := ((reachable_book h).future n hn).2

/-- **C92, never lost**: at every moment an invocation has been answered, once, or the PUBACK it asked for is still in the hands
of the client. -/
theorem C92_answered {cfg : Config} {c : Client} {b : Book} (h : ManualAck5.Reachable cfg c b) {n : Nat}
    (hn : n < b.calls.length) :
    (∃ r, answersOf n b = [r]) ∧ ¬ Underway c b n ∨ answersOf n b = [] ∧ Underway c b n := by
  have hb := reachable_book h
  have hh := reachable_held h.client
  have hl := (reachable_live h.client).2
  have hp := reachable_pack h.client
  have hbd := (reachable_manual h.client).2.1.bound
  have hcall := List.getElem?_eq_getElem hn
  rcases hb.past n _ hcall with ⟨u, id, h1, ⟨x, y, hx⟩, h3⟩ | ⟨h1, h2⟩
  · have hq : .pubackQueued u id ∈ c.ops.log := by rw [hx]; simp
    have hd : c.ops.log.countP (isDrop u) = 0 := by
      rw [List.countP_eq_zero]
      intro e he hx
      cases e <;> simp [isDrop] at hx
      subst hx
      exact hp.dropped _ _ id he hq
    have hone := hh.once u
    unfold places at hone
    rw [gone_count, hd, Nat.add_zero] at hone
    unfold born at hone
    rw [if_pos (hbd u id hq)] at hone
    have hlen := results_length u c.ops.log
    rw [← h3] at hlen
    have mem : (u, n) ∈ b.ops := by
      have : (u, n) ∈ b.ops.filter (·.2 == n) := by rw [h1]; simp
      exact (List.mem_filter.1 this).1
    have und : Underway c b n ↔ 0 < (c.ops.held.map (·.uid)).count u := by
      rw [List.count_pos_iff]
      constructor
      · rintro ⟨ctl', u', id', _, _, _, hm, _, op, rfl, _, hop⟩
        have : (op.uid, n) ∈ b.ops.filter (·.2 == n) := List.mem_filter.2 ⟨hm, by simp⟩
        rw [h1] at this
        simp at this
        refine List.mem_map.2 ⟨op, ?_, this⟩
        simp only [OpState.held, List.mem_append, Option.mem_toList]
        rcases hop with h | h | h
        · exact .inl h
        · exact .inr (.inl h)
        · exact .inr (.inr (.inl h))
      · intro hm
        obtain ⟨op, ho, rfl⟩ := List.mem_map.1 hm
        have hpk := hp.packet op ho id hq
        refine ⟨_, op.uid, id, x, y, hcall, mem, hx, op, rfl, hpk, ?_⟩
        simp only [OpState.held, List.mem_append, Option.mem_toList] at ho
        rcases ho with h | h | h | h
        · exact .inl h
        · exact .inr (.inl h)
        · exact .inr (.inr h)
        · have := hl.acked op h
          rw [hpk] at this
          cases this
    rw [und]
    cases ha : answersOf n b with
    | nil =>
      rw [ha] at hlen
      simp only [List.length_nil] at hlen
      exact .inr ⟨rfl, by omega⟩
    | cons r l =>
      rw [ha] at hlen
      simp only [List.length_cons] at hlen
      have : l = [] := List.length_eq_zero_iff.1 (by omega)
      subst this
      exact .inl ⟨⟨r, rfl⟩, by omega⟩
  · refine .inl ⟨by rcases h2 with h | h <;> exact ⟨_, h⟩, ?_⟩
    rintro ⟨_, u, _, _, _, _, hm, _⟩
    have : (u, n) ∈ b.ops.filter (·.2 == n) := List.mem_filter.2 ⟨hm, by simp⟩
    rw [h1] at this
    cases this

/-- **C92, offline**: while there is no connection - stopped, waiting to reconnect, connecting, terminated - every
invocation so far has been answered. -/
theorem C92_offline {cfg : Config} {c : Client} {b : Book} (h : ManualAck5.Reachable cfg c b) {n : Nat}
    (hn : n < b.calls.length)
    (hs : c.ctl.state = .stopped ∨ c.ctl.state = .pendingReconnect ∨ c.ctl.state = .connecting ∨ c.ctl.state = .terminated) :
    ∃ r, answersOf n b = [r] := by
  have hq : c.ctl.state.quiet = true := by rcases hs with h | h | h | h <;> rw [h] <;> rfl
  rcases C92_answered h hn with ⟨h1, _⟩ | ⟨_, _, u, id, _, _, _, _, _, op, _, hp, ho⟩
  · exact h1
  · obtain ⟨h2, h3⟩ := (reachable_held h.client).idle hq
    rcases ho with ho | ho | ho
    · exact absurd hp ((reachable_quiet h.client hq).2 op ho _)
    · rw [h2] at ho; cases ho
    · rw [h3] at ho; cases ho

/-- **C92, at once**: an invocation of a control that was given out on the present connection and has not been invoked since is
taken on; one given out on an earlier connection is told it has been cancelled; every other is told it is invalid. -/
theorem C92_told {cfg : Config} {c c' : Client} {b : Book} (h : ManualAck5.Reachable cfg c b) {ctl : Nat}
    (he : Enabled c (.invoke ctl)) (hs : step cfg c (.invoke ctl) = .ok c') :
    answersOf b.calls.length (b.next c (.invoke ctl) c') = told (standing ctl c.ops.log) ∧
    (∀ id, standing ctl c.ops.log = .held id →
      c'.ops.log = c.ops.log ++ [.invoked ctl (some id), .pubackQueued c.ops.nextUid id]) := by
  have hf : FateInv c.ops := (reachable_fate h.client).resolve_left he
  simp only [step] at hs
  cases hs
  have hst := hf.same ctl
  have h0 := (C92_not_early h (Nat.le_refl _))
  have h0' : b.answers.filter (·.1 == b.calls.length) = [] := by simpa [answersOf] using h0
  rw [← hst]
  unfold fate
  cases hg : c.ops.manualCtl.get ctl with
  | some id =>
    have hl : (c.ops.invoke ctl).log = c.ops.log ++ [.invoked ctl (some id), .pubackQueued c.ops.nextUid id] := by
      simp [OpState.invoke, hg, OpState.queuePuback]
    refine ⟨?_, fun id' hx => ?_⟩
    · simp only [Book.next, hl, List.drop_left]
      simp [Book.event, verdict, hg, Book.effect, answersOf, told, h0']
    · simp only [Standing.held.injEq] at hx
      subst hx
      exact hl
  | none =>
    have hl : (c.ops.invoke ctl).log = c.ops.log ++ [.invoked ctl none] := by simp [OpState.invoke, hg]
    simp only [Book.next, hl, List.drop_left]
    refine ⟨?_, fun id' hx => ?_⟩
    · by_cases hc : c.ops.cancelled.contains ctl = true
      · have hm := List.contains_iff_mem.1 hc
        simp [Book.event, verdict, hg, hm, Book.effect, answersOf, told, h0']
      · have hm : ctl ∉ c.ops.cancelled := fun hm => hc (List.contains_iff_mem.2 hm)
        simp [Book.event, verdict, hg, hm, Book.effect, answersOf, told, h0']
    · split at hx <;> cases hx

/-- **C92, kept**: what an invocation has been told stays; nothing is added. -/
theorem C92_kept {cfg : Config} {c c' : Client} {b : Book} {e : Event} (h : ManualAck5.Reachable cfg c b) (he : Enabled c e)
    (hs : step cfg c e = .ok c') {n : Nat} {r : Result} (hr : answersOf n b = [r]) : answersOf n (b.next c e c') = [r] := by
  have h1 := C92_at_most_once (.step h he hs) n
  obtain ⟨new, hl⟩ := step_log he hs
  have hpre : ∃ l, answersOf n (b.next c e c') = answersOf n b ++ l := by
    simp only [Book.next]
    have h2 : ∀ (l : List Effect) (b : Book), ∃ m, (l.foldl Book.effect b).answers = b.answers ++ m := by
      intro l
      induction l with
      | nil => exact fun b => ⟨[], by simp⟩
      | cons x l ih =>
        intro b
        obtain ⟨m, hm⟩ := ih (b.effect x)
        have : ∃ m, (b.effect x).answers = b.answers ++ m := by
          cases x with
          | completed u p r a => exact ⟨_, rfl⟩
          | _ => exact ⟨[], by simp [Book.effect]⟩
        obtain ⟨m', hm'⟩ := this
        exact ⟨m' ++ m, by rw [List.foldl_cons, hm, hm', List.append_assoc]⟩
    have h3 : ∃ m, (b.event c e).answers = b.answers ++ m := by
      cases e with
      | invoke ctl =>
        simp only [Book.event]
        split
        · exact ⟨[], by simp⟩
        · exact ⟨_, rfl⟩
      | _ => exact ⟨[], by simp [Book.event]⟩
    obtain ⟨m, hm⟩ := h2 (c'.ops.log.drop c.ops.log.length) (b.event c e)
    obtain ⟨m', hm'⟩ := h3
    exact ⟨((m' ++ m).filter (·.1 == n)).map (·.2), by simp [answersOf, hm, hm']⟩
  obtain ⟨l, hx⟩ := hpre
  rw [hx, hr] at h1 ⊢
  simp at h1
  simp [h1]

/-- **C92, success**: an invocation answered with success was accepted, and the PUBACK with the packet identifier of the publish
it is for has been written out completely, on the connection on which it was accepted. -/
theorem C92_success {cfg : Config} {c : Client} {b : Book} (h : ManualAck5.Reachable cfg c b) {n ctl : Nat}
    (hn : b.calls[n]? = some ctl) (hr : answersOf n b = [.success]) :
    ∃ u id x y z, c.ops.log = x ++ .invoked ctl (some id) :: .pubackQueued u id ::
        (y ++ .encoded u (.puback { packetId := id }) :: z) ∧
      .disconnected ∉ y := by
  rcases (reachable_book h).past n ctl hn with ⟨u, id, h1, ⟨x, y, hx⟩, h3⟩ | ⟨_, h2 | h2⟩
  · have hq : .pubackQueued u id ∈ c.ops.log := by rw [hx]; simp
    rw [hr] at h3
    have hmem : Result.success ∈ results u c.ops.log := by rw [← h3]; simp
    obtain ⟨e, he, hres⟩ := List.mem_filterMap.1 hmem
    cases e with
    | completed v p r a =>
      simp only at hres
      split at hres
      · rename_i hv
        subst hv
        have hsuc : r = .success := by
          simp only [converted, Option.some.injEq] at hres
          split at hres
          · assumption
          · cases hres
        subst hsuc
        have hw := (reachable_pack h.client).success _ _ _ id he hq
        obtain ⟨k, z, hk⟩ := List.append_of_mem hw
        obtain ⟨x', y', z', hx', _, hdis, _⟩ := C37_sent h.client hk
        rw [hx'] at hk
        have e1 : c.ops.log = (x ++ [.invoked ctl (some id)]) ++ .pubackQueued v id :: y := by rw [hx]; simp
        have e2 : c.ops.log = (x' ++ [y']) ++ .pubackQueued v id ::
            (z' ++ .encoded v (.puback { packetId := id }) :: z) := by
          rw [hk]; simp
        have hsame := pubackQueued_once h.client e1 e2
        rw [e1, hsame] at e2
        have := List.append_cancel_left e2
        simp only [List.cons.injEq, true_and] at this
        exact ⟨v, id, x, z', z, by rw [hx, this], hdis⟩
      · cases hres
    | _ => simp at hres
  · rw [hr] at h2; cases h2
  · rw [hr] at h2; cases h2

/-- A history with its book. -/
def runBook (cfg : Config) (c : Client) (b : Book) : List Event → Option (Client × Book)
  | [] => some (c, b)
  | e :: es =>
    if Enabled c e then
      match step cfg c e with
      | .error _ => none
      | .ok c' => runBook cfg c' (b.next c e c') es
    else none

theorem runBook_reachable {cfg : Config} {es : List Event} {c c' : Client} {b b' : Book}
    (h : runBook cfg c b es = some (c', b')) (hr : ManualAck5.Reachable cfg c b) : ManualAck5.Reachable cfg c' b' := by
  induction es generalizing c b with
  | nil => cases h; exact hr
  | cons e es ih =>
    rw [runBook] at h
    split at h
    · rename_i he
      split at h
      · cases h
      · rename_i c1 hs
        exact ih h (.step hr he hs)
    · cases h

/-- Three publishes are taken over under the controls 1, 2 and 3. -/
def threeTaken : List Event := connectWith {} ++
  [.packet (.publish { topic := [97], qos := 1, packetId := 5 }) true 1,
   .packet (.publish { topic := [97], qos := 1, packetId := 6 }) true 1,
   .packet (.publish { topic := [97], qos := 1, packetId := 7 }) true 1]

/-- Not vacuous: control 1 is invoked and its PUBACK written, control 2 is invoked and the connection lost before its PUBACK is
written; then controls 3, 1 and 9 are invoked. -/
example : (runBook {} (Client.new {}) {} (threeTaken ++
    [.invoke 1, .service {}, .writeComplete .success, .invoke 2, .shutdown (.other 0), .invoke 3, .invoke 1, .invoke 9])).any
    (fun r => decide (r.2.calls = [1, 2, 3, 1, 9] ∧ r.2.answers = [(0, .success), (1, .failure), (2, .cancelled), (3, .invalid),
      (4, .invalid)])) = true := by
  decide +kernel

/-- Not vacuous: an invocation that is underway. -/
example : (runBook {} (Client.new {}) {} (threeTaken ++ [.invoke 1, .invoke 2, .service {}])).any
    (fun r => decide (r.2.calls = [1, 2] ∧ answersOf 0 r.2 = [] ∧ answersOf 1 r.2 = [] ∧ r.1.ops.writing.length = 2)) = true := by
  decide +kernel

/-- Where the code says more than holds: the failure result "should indicate [...] that the PUBACK was not sent"
(mqtt5_options_storage.c:2314-2317). Here the PUBACK has been handed to the channel in one piece, and its invocation is told that it
failed because the connection is lost before the channel reports on the write. -/
theorem C92_failure_written : ∃ cfg c b data, ManualAck5.Reachable cfg c b ∧ answersOf 0 b = [.failure] ∧
    .wrote data ∈ c.ops.log ∧ data = [64, 2, 0, 5] := by
  have h : (runBook {} (Client.new {}) {} (threeTaken ++ [.invoke 1, .service {}, .shutdown (.other 0)])).any
      (fun r => decide (answersOf 0 r.2 = [.failure] ∧ .wrote [64, 2, 0, 5] ∈ r.1.ops.log)) = true := by decide +kernel
  obtain ⟨r, hr, ht⟩ := (Option.any_eq_true _ _).1 h
  have := of_decide_eq_true ht
  exact ⟨{}, r.1, r.2, _, runBook_reachable hr .new, this.1, this.2, rfl⟩

end Mqtt.Props
