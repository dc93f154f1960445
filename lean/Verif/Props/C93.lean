import Verif.Lemmas.Websocket311

/-! C93: the websocket handshake of a 3.1.1 connection. -/
namespace Mqtt.Props
open Mqtt.Client311 Mqtt.Websocket311

variable {o : Options} {c : Conn} {w : Ws}

/-- **C93, course**: the attempts to open a websocket come one after the other and each takes one of the courses of `Course`: while
none is in progress what has been seen is a sequence of complete attempts, while one is, it is such a sequence and what the attempt
has done so far. -/
theorem C93_course (h : Websocket311.Reachable o c w) :
    (c.opening = false → Past o w.made w.log) ∧
    (c.opening = true → ∃ r l t, w.made = r + 1 ∧ Past o r l ∧ Ongoing o r t ∧ w.log = l ++ t) := by
  refine ⟨fun ho => (h.inv.idle ho).2.2, fun ho => ?_⟩
  obtain ⟨r, l, t, _, hm, hp, hl, hc⟩ := h.inv.busy ho
  refine ⟨r, l, t, hm, hp, ?_, hl⟩
  rcases hc with ⟨_, ht, rfl⟩ | ⟨_, rfl⟩ | ⟨_, ⟨ht, rfl⟩ | rfl⟩
  · exact .given ht
  · exact .connecting
  · exact .given ht
  · exact .connecting

/-- **C93, requests**: each handshake request is released once, unless it is that of the attempt in progress, which has not been
released. -/
theorem C93_released (h : Websocket311.Reachable o c w) (r : Nat) :
    w.log.count (.made r) = (if r < w.made then 1 else 0) ∧
    w.log.count (.released r) = (if r < w.made ∧ ¬ (c.opening = true ∧ r + 1 = w.made) then 1 else 0) := by
  cases ho : c.opening with
  | false => simpa using (h.inv.idle ho).2.2.released (k := r)
  | true =>
    obtain ⟨q, l, t, hm, hp, ht, hl⟩ := (C93_course h).2 ho
    obtain ⟨h1, h2⟩ := hp.released (k := r)
    have hc : t.count (.made r) = (if r = q then 1 else 0) ∧ t.count (.released r) = 0 := by
      by_cases hq : r = q
      · subst hq
        cases ht <;> cases htr : o.transformer <;> simp_all [prepared]
      · have hq' : q ≠ r := fun e => hq e.symm
        cases ht <;> cases htr : o.transformer <;> simp_all [prepared]
    rw [hl, List.count_append, List.count_append, h1, h2, hc.1, hc.2, hm]
    simp only [true_and]
    refine ⟨?_, ?_⟩ <;> repeat (first | omega | split)

/-- **C93, none lost**: a destroyed connection has released every request, and there is no attempt in progress: nobody will call
back. -/
theorem C93_destroyed (h : Websocket311.Reachable o c w) (hd : c.destroyed = true) :
    w.phase = .idle ∧ ∀ r, w.log.count (.released r) = w.log.count (.made r) := by
  have ho := (h.conn.inv.1.off (h.conn.gone hd)).2.1
  refine ⟨(h.inv.idle ho).1, fun r => ?_⟩
  rw [(C93_released h r).1, (C93_released h r).2, ho]
  simp

/-- **C93, kept alive**: as long as the user transforms a request, or a websocket is being opened, or the task that reports the
failure is scheduled, the connection exists, holds a reference of itself, and the request is there. -/
theorem C93_alive (h : Websocket311.Reachable o c w) (hp : w.phase ≠ .idle) :
    c.destroyed = false ∧ c.pinned = true ∧ ∃ r, w.request = some r ∧ .made r ∈ w.log ∧ .released r ∉ w.log := by
  have ho : c.opening = true := by
    cases ho : c.opening with
    | true => rfl
    | false => exact absurd (h.inv.idle ho).1 hp
  have hst : c.state ≠ .disconnected := by
    intro e
    have := (h.conn.inv.1.off e).2.1
    rw [ho] at this
    cases this
  refine ⟨?_, ?_, ?_⟩
  · cases hd : c.destroyed with
    | false => rfl
    | true => exact absurd (h.conn.gone hd) hst
  · refine h.conn.inv.1.pin hst ?_
    have hb : c.busy = .idle := by
      cases hb : c.busy with
      | idle => rfl
      | _ =>
        have := (h.conn.inv.1.busyOpen (by simp [hb])).1
        rw [ho] at this
        cases this
    rw [hb]
    rfl
  · obtain ⟨r, l, t, hr, hm, _⟩ := h.inv.busy ho
    obtain ⟨h1, h2⟩ := C93_released h r
    refine ⟨r, hr, List.count_pos_iff.1 (by rw [h1, hm]; simp), List.count_eq_zero.1 (by rw [h2, hm, ho]; simp)⟩

/-- **C93, no fault**: the completion function of a transformation finds its request whenever the user calls it, on whatever
thread, and the setup callback finds it too. -/
theorem C93_transformed (h : Websocket311.Reachable o c w) (error opened : Bool)
    (he : Websocket311.Enabled o c w (.transformed error opened) = true) :
    ∃ w', Websocket311.step o c w (.transformed error opened) = .ok (c, w') ∧
      w'.phase = if error = false ∧ opened = true then .connecting else .failing := by
  simp only [Websocket311.Enabled, decide_eq_true_eq] at he
  obtain ⟨_, _, r, hr, _⟩ := C93_alive h (by simp [he])
  refine ⟨w.complete r error opened, by simp only [Websocket311.step, hr], ?_⟩
  cases error <;> cases opened <;> rfl

/-- **C93, handshake**: a websocket is opened with the request just made for it, after the user's transformer has been called for
it if there is one. -/
theorem C93_opened (h : Websocket311.Reachable o c w) {r : Nat} {pre post : List Effect}
    (hl : w.log = pre ++ .connect r :: post) : ∃ l, pre = l ++ prepared o r ∧ Past o r l := by
  have past : ∀ {n l post}, Past o n l → l = pre ++ .connect r :: post → ∃ l, pre = l ++ prepared o r ∧ Past o r l := by
    intro n l post hp e
    obtain ⟨k, l', p, q, t, _, hp', hc, ht, rfl⟩ := hp.split e
    obtain ⟨rfl, rfl⟩ := (hc.order).1 ht
    exact ⟨l', rfl, hp'⟩
  cases ho : c.opening with
  | false => exact past ((C93_course h).1 ho) hl
  | true =>
    obtain ⟨q, l, t, hm, hp, ht, e⟩ := (C93_course h).2 ho
    rw [e] at hl
    have hc : Course o q (t ++ [.released q]) := by
      cases ht with
      | given h => exact .untransformed h
      | connecting => simpa [tried] using Course.unopened (o := o) (r := q)
    refine past (hp.next hc) (post := post ++ [.released q]) ?_
    rw [← List.append_assoc, hl]
    simp

/-- **C93, response**: a websocket is used for MQTT only after the user's validator, if there is one, has accepted the response
to its handshake, and its request has been released. -/
theorem C93_installed (h : Websocket311.Reachable o c w) {r : Nat} {pre post : List Effect}
    (hl : w.log = pre ++ .install r :: post) :
    ∃ l, pre = l ++ tried o r ++ (if o.validator then [.validate r true] else []) ∧ Past o r l := by
  have past : ∀ {n l post}, Past o n l → l = pre ++ .install r :: post →
      ∃ l, pre = l ++ tried o r ++ (if o.validator then [.validate r true] else []) ∧ Past o r l := by
    intro n l post hp e
    obtain ⟨k, l', p, q, t, _, hp', hc, ht, rfl⟩ := hp.split e
    obtain ⟨rfl, _, rfl⟩ := (hc.order).2 ht
    exact ⟨l', by simp, hp'⟩
  cases ho : c.opening with
  | false => exact past ((C93_course h).1 ho) hl
  | true =>
    obtain ⟨q, l, t, hm, hp, ht, e⟩ := (C93_course h).2 ho
    rw [e] at hl
    have hc : Course o q (t ++ [.released q]) := by
      cases ht with
      | given h => exact .untransformed h
      | connecting => simpa [tried] using Course.unopened (o := o) (r := q)
    refine past (hp.next hc) (post := post ++ [.released q]) ?_
    rw [← List.append_assoc, hl]
    simp

/-- A history. -/
def runWs (o : Options) (c : Conn) (w : Ws) : List Websocket311.Event → Option (Conn × Ws)
  | [] => some (c, w)
  | e :: es =>
    if c.destroyed = false ∧ Websocket311.Enabled o c w e = true then
      match Websocket311.step o c w e with
      | .error _ => none
      | .ok (c', w') => runWs o c' w' es
    else none

theorem runWs_reachable {es : List Websocket311.Event} {c' : Conn} {w' : Ws} (h : runWs o c w es = some (c', w'))
    (hr : Websocket311.Reachable o c w) : Websocket311.Reachable o c' w' := by
  induction es generalizing c w with
  | nil => cases h; exact hr
  | cons e es ih =>
    rw [runWs] at h
    split at h
    · rename_i he
      split at h
      · cases h
      · rename_i c1 w1 hs
        exact ih h (.step hr he.1 he.2 hs)
    · cases h

/-- Not vacuous: the first attempt succeeds; when the connection is lost the user fails to transform the second request, refuses the
response of the third, and is transforming the fourth when they disconnect; the websocket still opens, and is closed. The connection
is released while the fourth request is being transformed. -/
example : (runWs { transformer := true, validator := true } {} {}
    [.base (.connect false), .base .advance, .base (.launch true), .transformed false, .base (.setup .opened),
     .base (.packet (.connack true)), .base .close, .base .shutdown, .base .advance, .base .advance,
     .base (.attempt true), .transformed true, .base (.setup .failed), .base .advance,
     .base (.attempt true), .transformed false, .base (.setup .refused), .base .shutdown, .base .advance,
     .base (.attempt true), .base .disconnect, .base .release, .transformed false, .base (.setup .opened), .base .shutdown,
     .base .advance]).any
    (fun r => decide (r.1.destroyed = true ∧ r.2.log =
      [.made 0, .transform 0, .connect 0, .released 0, .validate 0 true, .install 0,
       .made 1, .transform 1, .released 1,
       .made 2, .transform 2, .connect 2, .released 2, .validate 2 false,
       .made 3, .transform 3, .connect 3, .released 3, .validate 3 true, .install 3])) = true := by
  decide +kernel

end Mqtt.Props
