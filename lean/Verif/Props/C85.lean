import Verif.Lemmas.Timeout311Log

/-!
C85: when an operation of an MQTT 3.1.1 connection fails with AWS_ERROR_MQTT_TIMEOUT.
-/
namespace Mqtt.Props
open Mqtt.Timeout311

private theorem open_of {c : Conn} {log : List Entry} (h : Good c log) {r : Req} (hr : r ∈ c.reqs) : Open log r.num := by
  obtain ⟨pre, post, e, _⟩ := h.li.req r hr
  exact ⟨by rw [e]; simp, fun res t hd => (h.li.done _ res t hd).2 r hr rfl⟩

private theorem req_of {c : Conn} {log : List Entry} (h : Good c log) {n : Nat} (ho : Open log n) : ∃ r ∈ c.reqs, r.num = n := by
  rcases (h.li.sub n ho.1).2 with hr | ⟨res, t, hd⟩
  · exact hr
  · exact absurd hd (ho.2 res t)

private theorem split_unique {α : Type} [BEq α] [LawfulBEq α] {a : α} {p q p' q' : List α} (h : p ++ a :: q = p' ++ a :: q') (hc : (p ++ a :: q).count a ≤ 1) :
    p = p' ∧ q = q' := by
  have hp : a ∉ p := by
    intro hp
    have := List.count_pos_iff.2 hp
    rw [List.count_append, List.count_cons_self] at hc
    omega
  have hp' : a ∉ p' := by
    intro hp'
    have := List.count_pos_iff.2 hp'
    rw [h, List.count_append, List.count_cons_self] at hc
    omega
  induction p generalizing p' with
  | nil =>
    cases p' with
    | nil => simpa using h
    | cons x p' =>
      simp only [List.nil_append, List.cons_append, List.cons.injEq] at h
      exact absurd (by simp [h.1]) hp'
  | cons y p ih =>
    cases p' with
    | nil =>
      simp only [List.nil_append, List.cons_append, List.cons.injEq] at h
      exact absurd (by simp [h.1]) hp
    | cons x p' =>
      simp only [List.cons_append, List.cons.injEq] at h
      obtain ⟨rfl, h⟩ := h
      have hc' : (p ++ a :: q).count a ≤ 1 := by
        rw [List.cons_append, List.count_cons] at hc; omega
      obtain ⟨e1, e2⟩ := ih h hc' (fun hx => hp (List.mem_cons_of_mem _ hx)) (fun hx => hp' (List.mem_cons_of_mem _ hx))
      exact ⟨by rw [e1], e2⟩

/-- The timeout of a request is the one that was configured when it was submitted. -/
private theorem timeout_of {c : Conn} {log : List Entry} (h : Good c log) {r : Req} (hr : r ∈ c.reqs) {o : Option Nat} (hc : Configured log r.num o) :
    Fits o r.timeout := by
  obtain ⟨pre, post, e, hf⟩ := h.li.req r hr
  obtain ⟨pre', post', e', rfl⟩ := hc
  have := split_unique (e.symm.trans e') (by rw [← e]; exact h.li.uniq r.num)
  rw [← this.1]; exact hf

private theorem configured_of {c : Conn} {log : List Entry} (h : Good c log) {r : Req} (hr : r ∈ c.reqs) (h0 : r.timeout ≠ 0) (hu : r.timeout ≠ umax) :
    Configured log r.num (some r.timeout) := by
  obtain ⟨pre, post, e, hf⟩ := h.li.req r hr
  refine ⟨pre, post, e, ?_⟩
  cases hc : configured pre with
  | none => rw [hc] at hf; rcases hf with hf | hf <;> contradiction
  | some T => rw [hc] at hf; rw [hf.1]

/-- Which entries a step makes that say that an operation is complete. -/
private theorem step_done {c : Conn} {log : List Entry} (h : Good c log) {e : Event} (hen : Enabled c e) {n t : Nat} {res : Result} {pre post : List Entry}
    (hs : (step c e).2 = pre ++ .done n res t :: post) :
    Open log n ∧ t = c.now ∧ post = [] ∧ (∀ r' t', .done n r' t' ∉ pre) ∧
    (res = .timeout → pre = [] ∧ ∃ r ∈ c.reqs, r.num = n ∧ r.timeout ≠ 0 ∧ r.timeout ≠ umax ∧ ∃ t0, r.sentAt = some t0 ∧ min (t0 + r.timeout) umax ≤ c.now) := by
  have hone : ∀ {r : Req} {x : Result}, r ∈ c.reqs → [Entry.done r.num x c.now] = pre ++ .done n res t :: post →
      Open log n ∧ t = c.now ∧ post = [] ∧ pre = [] ∧ r.num = n ∧ res = x := by
    intro r x hr he
    cases pre with
    | nil =>
      simp only [List.nil_append, List.cons.injEq, Entry.done.injEq] at he
      obtain ⟨⟨rfl, rfl, rfl⟩, rfl⟩ := he
      exact ⟨open_of h hr, rfl, rfl, rfl, rfl, rfl⟩
    | cons _ p => cases p <;> simp at he
  have hplain : ∀ {r : Req} {x : Result}, r ∈ c.reqs → x ≠ .timeout → [Entry.done r.num x c.now] = pre ++ .done n res t :: post →
      Open log n ∧ t = c.now ∧ post = [] ∧ (∀ r' t', .done n r' t' ∉ pre) ∧
      (res = .timeout → pre = [] ∧ ∃ r ∈ c.reqs, r.num = n ∧ r.timeout ≠ 0 ∧ r.timeout ≠ umax ∧ ∃ t0, r.sentAt = some t0 ∧ min (t0 + r.timeout) umax ≤ c.now) := by
    intro r x hr hx he
    obtain ⟨a, b, d, p, _, e⟩ := hone hr he
    exact ⟨a, b, d, by simp [p], fun e' => absurd (e.symm.trans e') hx⟩
  cases e with
  | tick ns => simp [Timeout311.step] at hs
  | connect ms => simp only [Timeout311.step] at hs; cases pre <;> simp at hs
  | up => simp [Timeout311.step] at hs
  | down =>
    obtain ⟨_, k2, _⟩ := cancelAll_ok c.timers h.tb rfl
    simp only [Timeout311.step, k2, List.nil_append] at hs
    cases pre <;> simp at hs
  | submit pid q => simp only [Timeout311.step] at hs; cases pre <;> simp at hs
  | write pid =>
    obtain ⟨_, r, hf, _⟩ := hen
    simp only [Timeout311.step, hf] at hs; cases pre <;> simp at hs
  | ack pid =>
    obtain ⟨_, r, hf, _⟩ := hen
    simp only [Timeout311.step, Conn.requestComplete, hf] at hs
    rw [(complete_ok h.tb h.armed (find_mem hf).1 .ok).2.2] at hs
    exact hplain (find_mem hf).1 (by simp) hs
  | fail pid =>
    obtain ⟨r, hf⟩ := hen
    simp only [Timeout311.step, Conn.requestComplete, hf] at hs
    rw [(complete_ok h.tb h.armed (find_mem hf).1 .failed).2.2] at hs
    exact hplain (find_mem hf).1 (by simp) hs
  | send pid s =>
    obtain ⟨hch, r, hf, ht, hsr⟩ := hen
    have hr := (find_mem hf).1
    simp only [Timeout311.step, hf] at hs
    cases s with
    | error =>
      simp only [Conn.send] at hs
      rw [(complete_ok h.tb h.armed hr .failed).2.2] at hs
      exact hplain hr (by simp) hs
    | refused => simp [Conn.send] at hs
    | sent =>
      cases hq : r.qos0 with
      | false =>
        rw [(send_sent h.tb h.armed hch hr hq ht).2.2.1] at hs
        cases pre <;> simp at hs
      | true =>
        have hnone := h.tb.tried r hr ht
        simp only [Conn.send, hq, if_true, schedule_qos0, Conn.setReq, Conn.complete, hnone.2] at hs
        cases pre with
        | nil => simp at hs
        | cons x p =>
          simp only [List.cons_append, List.cons.injEq] at hs
          obtain ⟨rfl, hs⟩ := hs
          cases p with
          | nil =>
            simp only [List.nil_append, List.cons.injEq, Entry.done.injEq] at hs
            obtain ⟨⟨rfl, rfl, rfl⟩, rfl⟩ := hs
            exact ⟨open_of h hr, rfl, rfl, by simp, by simp⟩
          | cons _ p => cases p <;> simp at hs
  | run num =>
    obtain ⟨_, tm, htm, rfl, hdue⟩ := hen
    simp only [Timeout311.step, findTimer_of h.tb htm] at hs
    obtain ⟨_, _, e3, _⟩ := expire_ok h.tb h.armed htm
    rcases e3 with ⟨_, o2, _⟩ | ⟨r, hr, o1, _, o2, _⟩
    · rw [o2] at hs; simp at hs
    · rw [o2] at hs
      obtain ⟨a, b, d, p, e, _⟩ := hone hr hs
      refine ⟨a, b, d, by simp [p], fun _ => ⟨p, r, hr, e, ?_⟩⟩
      obtain ⟨r', hr', b1, _, _, b4, b5, t0, b6, b7⟩ := h.tb.back tm htm _ o1
      obtain rfl := nodup_key h.tb.numNd hr' hr b1
      exact ⟨b4, b5, t0, b6, by rw [← b7]; exact hdue⟩

/-- Each operation is completed at most once, after it was submitted, and no freed memory is used. -/
theorem C85_once {c : Conn} {log : List Entry} (h : Reachable c log) :
    .invalid ∉ log ∧
    ∀ pre post n res t, log = pre ++ .done n res t :: post → .submitted n ∈ pre ∧ ∀ res' t', .done n res' t' ∉ pre ∧ .done n res' t' ∉ post := by
  refine ⟨(reachable_good h).li.valid, ?_⟩
  have hpre : ∀ pre post n res t, log = pre ++ .done n res t :: post → Open pre n := by
    induction h with
    | init => intro pre post n res t e; simp at e
    | step ev hr hen ih =>
      intro pre post n res t he
      rcases List.append_eq_append_iff.1 he with ⟨a, e1, e2⟩ | ⟨a, e1, e2⟩
      · obtain ⟨s1, _, _, s4, _⟩ := step_done (reachable_good hr) hen e2
        rw [e1]
        exact ⟨List.mem_append_left _ s1.1, fun r' t' hd => (List.mem_append.1 hd).elim (s1.2 r' t') (s4 r' t')⟩
      · cases a with
        | nil =>
          simp only [List.nil_append, List.append_nil] at e1 e2
          obtain ⟨s1, _⟩ := step_done (reachable_good hr) hen (pre := []) e2.symm
          rw [← e1]; exact s1
        | cons x a =>
          simp only [List.cons_append, List.cons.injEq] at e2
          obtain ⟨rfl, e2⟩ := e2
          exact ih pre a n res t e1
  intro pre post n res t e
  have h1 := hpre pre post n res t e
  refine ⟨h1.1, fun res' t' => ⟨h1.2 res' t', fun hp => ?_⟩⟩
  obtain ⟨p, q, rfl⟩ := List.append_of_mem hp
  have := hpre (pre ++ .done n res t :: p) q n res' t' (by rw [e]; simp)
  exact this.2 res t (by simp)

/-- An operation times out only if it waits for its response, it was sent on this channel, a timeout was configured when it was
submitted, and that time has passed since it was sent (the clock ends at 2^64 - 1 nanoseconds). -/
theorem C85_timeout {c : Conn} {log : List Entry} (h : Reachable c log) {pre post : List Entry} {n t : Nat}
    (e : log = pre ++ .done n .timeout t :: post) :
    Open pre n ∧ ∃ T t0, Configured pre n (some T) ∧ SentAt pre n t0 ∧ (t0 + T ≤ t ∨ umax ≤ t) := by
  induction h generalizing pre post n t with
  | init => simp at e
  | @step c0 log0 ev hr hen ih =>
    have hg := reachable_good hr
    have key : ∀ {p q : List Entry}, (Timeout311.step c0 ev).2 = p ++ .done n .timeout t :: q → p = [] ∧ Open log0 n ∧
        ∃ T t0, Configured log0 n (some T) ∧ SentAt log0 n t0 ∧ (t0 + T ≤ t ∨ umax ≤ t) := by
      intro p q hs
      obtain ⟨s1, s2, _, _, s5⟩ := step_done hg hen hs
      obtain ⟨p0, r, hr', rfl, h0, hu, t0, hs0, hd⟩ := s5 rfl
      refine ⟨p0, s1, r.timeout, t0, configured_of hg hr' h0 hu, (hg.li.sent r hr' t0).1 hs0, ?_⟩
      rw [s2]; omega
    rcases List.append_eq_append_iff.1 e with ⟨a, e1, e2⟩ | ⟨a, e1, e2⟩
    · obtain ⟨rfl, k⟩ := key e2
      rw [e1, List.append_nil]; exact k
    · cases a with
      | nil =>
        simp only [List.nil_append, List.append_nil] at e1 e2
        obtain ⟨_, k⟩ := key (p := []) e2.symm
        rw [← e1]; exact k
      | cons x a =>
        simp only [List.cons_append, List.cons.injEq] at e2
        obtain ⟨rfl, e2⟩ := e2
        exact ih e1

/-- An operation that was submitted while no timeout was configured does not time out. -/
theorem C85_disabled {c : Conn} {log : List Entry} (h : Reachable c log) {n : Nat} (hc : Configured log n none) (t : Nat) :
    .done n .timeout t ∉ log := by
  intro hd
  obtain ⟨p, q, rfl⟩ := List.append_of_mem hd
  obtain ⟨_, T, _, ⟨pre, post, e, hT⟩, _⟩ := C85_timeout h rfl
  obtain ⟨pre', post', e', hn⟩ := hc
  have hu := (reachable_good h).li.uniq n
  have e2 : pre ++ .submitted n :: (post ++ .done n .timeout t :: q) = pre' ++ .submitted n :: post' := by
    rw [← e', e]; simp
  obtain ⟨rfl, _⟩ := split_unique e2 (by rw [e2, ← e']; exact hu)
  rw [hT] at hn; cases hn

/-- An operation that was sent, waits, and had a timeout configured when it was submitted: as soon as that time has passed
since it was sent, its timeout task is due, and it fails the operation and no other. -/
theorem C85_due {c : Conn} {log : List Entry} (h : Reachable c log) {n T t0 : Nat} (ho : Open log n) (hs : SentAt log n t0)
    (hc : Configured log n (some T)) (hnow : t0 + T ≤ c.now) :
    ∃ k, Enabled c (.run k) ∧ (Timeout311.step c (.run k)).2 = [.done n .timeout c.now] := by
  have hg := reachable_good h
  obtain ⟨r, hr, rfl⟩ := req_of hg ho
  have hsr := (hg.li.sent r hr t0).2 hs
  obtain ⟨rfl, h0, hu⟩ := timeout_of hg hr hc
  have harm := hg.armed r hr (by rw [hsr]; simp) h0 hu
  cases htm : r.timer with
  | none => exact absurd htm harm
  | some k =>
    obtain ⟨t, ht, rfl, how⟩ := hg.tb.fwd r hr k htm
    refine ⟨t.num, ⟨?_, t, ht, rfl, ?_⟩, ?_⟩
    · cases hch : c.chan with
      | true => rfl
      | false => rw [hg.tb.chan hch] at ht; cases ht
    · obtain ⟨r', hr', b1, _, _, _, _, t1, b6, b7⟩ := hg.tb.back t ht _ how
      obtain rfl := nodup_key hg.tb.numNd hr' hr b1
      rw [hsr] at b6
      injection b6 with b6
      rw [b7]; omega
    · simp only [Timeout311.step, findTimer_of hg.tb ht]
      obtain ⟨_, _, e3, _⟩ := expire_ok hg.tb hg.armed ht
      rcases e3 with ⟨o1, _⟩ | ⟨r', hr', o1, _, o2, _⟩
      · rw [o1] at how; cases how
      · rw [how] at o1
        injection o1 with o1
        rw [o2, o1]

/-- A timeout task that is run fails at most one operation and does nothing else. -/
theorem C85_alone {c : Conn} {log : List Entry} (h : Reachable c log) {k : Nat} (hen : Enabled c (.run k)) :
    (Timeout311.step c (.run k)).2 = [] ∨ ∃ n, Open log n ∧ (Timeout311.step c (.run k)).2 = [.done n .timeout c.now] := by
  have hg := reachable_good h
  obtain ⟨_, t, ht, rfl, _⟩ := hen
  simp only [Timeout311.step, findTimer_of hg.tb ht]
  obtain ⟨_, _, e3, _⟩ := expire_ok hg.tb hg.armed ht
  rcases e3 with ⟨_, o2, _⟩ | ⟨r, hr, _, _, o2, _⟩
  · exact .inl o2
  · exact .inr ⟨r.num, open_of hg hr, o2⟩

/-- No operation waits longer than the timeout that was configured when it was submitted, except while a timeout task is due
that the event loop has not run yet. -/
theorem C85_prompt {c : Conn} {log : List Entry} (h : Reachable c log) (hrun : ∀ k, ¬ Enabled c (.run k)) {n T t0 : Nat}
    (hs : SentAt log n t0) (hc : Configured log n (some T)) (hnow : t0 + T ≤ c.now) : ¬ Open log n := by
  intro ho
  obtain ⟨k, hk, _⟩ := C85_due h ho hs hc hnow
  exact hrun k hk

/-- Running a timeout task leaves one task less, so that the event loop comes to an end with the tasks that are due. -/
theorem C85_fewer {c : Conn} {log : List Entry} (h : Reachable c log) {k : Nat} (hen : Enabled c (.run k)) :
    (Timeout311.step c (.run k)).1.timers.length < c.timers.length := by
  have hg := reachable_good h
  obtain ⟨_, t, ht, rfl, _⟩ := hen
  simp only [Timeout311.step, findTimer_of hg.tb ht]
  have hlt : ∀ {l : List Timer}, t.num ∈ l.map (·.num) → (l.filter (·.num ≠ t.num)).length < l.length := by
    intro l hm
    obtain ⟨x, hx, he⟩ := List.mem_map.1 hm
    refine List.length_filter_lt_length_iff_exists.2 ⟨x, hx, by simp [he]⟩
  unfold Conn.expire
  have hx : ∀ c' : Conn, (c'.dropTimer t.num).1.timers = c'.timers.filter (·.num ≠ t.num) := by
    intro c'
    unfold Conn.dropTimer
    cases (c'.timers.find? (·.num = t.num)).bind (·.owner) <;> simp [Conn.setReq]
  have hy : ((if t.owner ≠ none then c.requestComplete t.pid .timeout else (c, [])).1.timers).map (·.num) = c.timers.map (·.num) := by
    split
    · unfold Conn.requestComplete
      cases c.find t.pid with
      | none => rfl
      | some r =>
        simp only [Conn.complete, List.map_map]
        apply List.map_congr_left
        intro x _
        simp only [Function.comp]
        split <;> rfl
    · rfl
  simp only
  rw [hx]
  have := hlt (l := (if t.owner ≠ none then c.requestComplete t.pid .timeout else (c, [])).1.timers) (by rw [hy]; exact List.mem_map.2 ⟨t, ht, rfl⟩)
  have hl := congrArg List.length hy
  simp only [List.length_map] at hl
  omega

/-! ### Executions -/

private def okb (c : Conn) : Event → Bool
  | .tick _ => true
  | .connect ms => !c.chan && decide (ms < 4294967296)
  | .up => !c.chan
  | .down => c.chan
  | .submit pid _ => decide (pid ≠ 0) && c.reqs.all (·.pid ≠ pid)
  | .send pid s => c.chan && match c.find pid with
    | some r => !r.tried && (!r.qos0 || decide (s ≠ .refused))
    | none => false
  | .write pid => c.chan && match c.find pid with
    | some r => r.sentAt.isSome
    | none => false
  | .ack pid => c.chan && match c.find pid with
    | some r => r.tried
    | none => false
  | .fail pid => (c.find pid).isSome
  | .run num => c.chan && c.timers.any fun t => t.num = num && decide (t.due ≤ c.now)

private theorem okb_sound {c : Conn} {e : Event} (h : okb c e = true) : Enabled c e := by
  cases e with
  | tick => trivial
  | connect ms => simp [okb] at h; exact h
  | up => simpa [okb, Enabled] using h
  | down => exact h
  | submit pid q => simp [okb] at h; exact ⟨h.1, fun r hr => by simpa using h.2 r hr⟩
  | send pid s =>
    simp only [okb, Bool.and_eq_true] at h
    cases hf : c.find pid with
    | none => rw [hf] at h; simp at h
    | some r =>
      rw [hf] at h
      simp only [Bool.and_eq_true] at h
      refine ⟨h.1, r, hf, by simpa using h.2.1, fun hq => ?_⟩
      simpa [hq] using h.2.2
  | write pid =>
    simp only [okb, Bool.and_eq_true] at h
    cases hf : c.find pid with
    | none => rw [hf] at h; simp at h
    | some r => rw [hf] at h; refine ⟨h.1, r, hf, fun e => ?_⟩; simp [e] at h
  | ack pid =>
    simp only [okb, Bool.and_eq_true] at h
    cases hf : c.find pid with
    | none => rw [hf] at h; simp at h
    | some r => rw [hf] at h; exact ⟨h.1, r, hf, h.2⟩
  | fail pid => exact Option.isSome_iff_exists.1 h
  | run num => simpa [okb, Enabled, Bool.and_eq_true, List.any_eq_true] using h

private def play : Conn → List Entry → List Event → Option (Conn × List Entry)
  | c, log, [] => some (c, log)
  | c, log, e :: es => if okb c e then play (Timeout311.step c e).1 (log ++ (Timeout311.step c e).2) es else none

private theorem play_sound {es : List Event} : ∀ {c c' : Conn} {log log' : List Entry}, Reachable c log → play c log es = some (c', log') → Reachable c' log' := by
  induction es with
  | nil => intro c c' log log' h e; simp only [play, Option.some.injEq, Prod.mk.injEq] at e; rw [← e.1, ← e.2]; exact h
  | cons a es ih =>
    intro c c' log log' h e
    simp only [play] at e
    split at e
    · next ho => exact ih (.step a h (okb_sound ho)) e
    · cases e

/-- An operation that was submitted before the first connect() does not time out, whatever timeout that connect() asks for. -/
theorem C85_violated_before : ∃ c log T t0, Reachable c log ∧ Open log 0 ∧ SentAt log 0 t0 ∧ configured log = some T ∧ t0 + T + 3600000000000 ≤ c.now ∧
    ∀ k, ¬ Enabled c (.run k) := by
  refine ⟨_, _, 5000000000, 0, play_sound .init
    (es := [.submit 1 false, .connect 5000, .up, .send 1 .sent, .tick 4000000000000]) rfl, ?_, ?_, by decide +kernel, by decide +kernel, ?_⟩
  · refine ⟨by decide +kernel, ?_⟩
    intro r t; simp [Timeout311.step, Conn.send, Conn.schedule, Conn.setReq, Conn.find, umax]
  · exact ⟨[.submitted 0, .connect 5000], [], rfl, by simp⟩
  · rintro k ⟨_, t, ht, _⟩
    revert ht
    have : ∀ l : List Timer, l = [] → t ∉ l := by rintro l rfl; simp
    exact this _ rfl

/-- An operation keeps the timeout that was configured when it was submitted: after a connect() that asks for 60 seconds it
still times out 5 seconds after it was sent. -/
theorem C85_violated_options : ∃ c pre t0 t T, Reachable c (pre ++ [.done 0 .timeout t]) ∧ configured pre = some T ∧ SentAt pre 0 t0 ∧
    .sent 0 t0 ∈ pre.dropWhile (· ≠ .connect 60000) ∧ t < t0 + T := by
  refine ⟨_, [.connect 5000, .submitted 0, .connect 60000, .sent 0 7], 7, 5000000007, 60000000000, play_sound .init
    (es := [.connect 5000, .submit 1 false, .connect 60000, .up, .tick 7, .send 1 .sent, .tick 5000000000, .run 0]) rfl, by decide +kernel, ?_,
    by decide +kernel, by omega⟩
  exact ⟨[.connect 5000, .submitted 0, .connect 60000], [], rfl, by simp⟩

/-- The time is counted from when the packet is handed to the channel: an operation can time out before its packet is written
to the socket. -/
theorem C85_violated_written : ∃ c log t, Reachable c log ∧ .done 0 .timeout t ∈ log ∧ .written 0 ∉ log := by
  exact ⟨_, _, 5000000000, play_sound .init
    (es := [.connect 5000, .up, .submit 1 false, .send 1 .sent, .tick 5000000000, .run 0]) rfl, by decide +kernel, by decide +kernel⟩

/-- The timer starts again after an interruption: an operation that was sent for 4 seconds on one channel has 5 seconds on the
next one, and times out then. Another operation is acknowledged in time. -/
example : ∃ c, Reachable c ([.connect 5000, .submitted 0, .submitted 1, .sent 0 0, .sent 1 0, .written 0, .done 1 .ok 4000000000, .down,
    .sent 0 4000000000] ++ [.done 0 .timeout 9000000000]) :=
  ⟨_, play_sound .init (es := [.connect 5000, .up, .submit 1 false, .submit 2 false, .send 1 .sent, .send 2 .sent, .write 1, .tick 4000000000,
    .ack 2, .down, .up, .send 1 .sent, .tick 5000000000, .run 2]) rfl⟩

/-- The hypotheses of `C85_due`. -/
example : ∃ c log, Reachable c log ∧ Open log 0 ∧ SentAt log 0 0 ∧ Configured log 0 (some 5000000000) ∧ 0 + 5000000000 ≤ c.now := by
  refine ⟨_, [.connect 5000, .submitted 0, .sent 0 0], play_sound .init
    (es := [.connect 5000, .up, .submit 1 false, .send 1 .sent, .tick 6000000000]) rfl, ⟨by simp, by simp⟩, ⟨[.connect 5000, .submitted 0], [], rfl, by simp⟩,
    ⟨[.connect 5000], [.sent 0 0], rfl, by decide +kernel⟩, by decide +kernel⟩

/-- The hypotheses of `C85_disabled`. -/
example : ∃ c log, Reachable c log ∧ Configured log 0 none ∧ SentAt log 0 0 :=
  ⟨_, [.connect 0, .submitted 0, .sent 0 0], play_sound .init (es := [.connect 0, .up, .submit 1 false, .send 1 .sent, .tick 6000000000]) rfl,
    ⟨[.connect 0], [.sent 0 0], rfl, by decide +kernel⟩, ⟨[.connect 0, .submitted 0], [], rfl, by simp⟩⟩

end Mqtt.Props
