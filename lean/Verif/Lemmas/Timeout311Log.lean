import Verif.Lemmas.Timeout311

/-!
The log of an MQTT 3.1.1 connection and its requests (C85).
-/
namespace Mqtt.Timeout311

/-! ### Steps -/

theorem tb_map {c : Conn} (h : TB c) {g : Req → Req} (hn : ∀ r, (g r).num = r.num) (hp : ∀ r, (g r).pid = r.pid)
    (htm : ∀ r, (g r).timer = r.timer) (hto : ∀ r, (g r).timeout = r.timeout) (hq : ∀ r ∈ c.reqs, (g r).qos0 = true → (g r).sentAt = none)
    (hs : ∀ r ∈ c.reqs, r.timer ≠ none → (g r).sentAt = r.sentAt)
    (ht : ∀ r ∈ c.reqs, (g r).tried = false → (g r).sentAt = none ∧ (g r).timer = none) : TB { c with reqs := c.reqs.map g } := by
  obtain ⟨a1, a2, a3, a4, a5, a6, a7, a8, a9, a10, a11⟩ := h
  constructor
  · show (List.map _ (List.map _ _)).Nodup
    rw [List.map_map]
    have : ((fun r : Req => r.num) ∘ g) = fun r => r.num := funext hn
    rw [this]; exact a1
  · show (List.map _ (List.map _ _)).Nodup
    rw [List.map_map]
    have : ((fun r : Req => r.pid) ∘ g) = fun r => r.pid := funext hp
    rw [this]; exact a2
  · exact a3
  · intro x hx
    obtain ⟨y, hy, rfl⟩ := List.mem_map.1 hx
    rw [hn]; exact a4 y hy
  · exact a5
  · intro x hx n hxn
    obtain ⟨y, hy, rfl⟩ := List.mem_map.1 hx
    rw [htm] at hxn
    rw [hn]; exact a6 y hy n hxn
  · intro t ht' n hn'
    obtain ⟨x, hx, b1, b2, b3, b4, b5, b6⟩ := a7 t ht' n hn'
    refine ⟨g x, List.mem_map.2 ⟨x, hx, rfl⟩, by rw [hn, b1], by rw [htm, b2], by rw [hp, b3], by rw [hto]; exact b4, by rw [hto]; exact b5, ?_⟩
    rw [hto, hs x hx (by rw [b2]; simp)]; exact b6
  · intro x hx
    obtain ⟨y, hy, rfl⟩ := List.mem_map.1 hx
    exact ht y hy
  · exact a9
  · intro x hx
    obtain ⟨y, hy, rfl⟩ := List.mem_map.1 hx
    rw [hp]; exact a10 y hy
  · intro x hx
    obtain ⟨y, hy, rfl⟩ := List.mem_map.1 hx
    exact hq y hy

theorem schedule_qos0 (c : Conn) (r : Req) : c.schedule r 0 = c := by
  unfold Conn.schedule
  rw [if_pos (.inr (.inr rfl))]

/-- The request as it is after it was sent. -/
def sentReq (c : Conn) (r : Req) : Req :=
  { r with
    tried := true
    sentAt := some c.now
    timer := if r.timeout = umax ∨ r.timeout = 0 then r.timer else some c.nextTimer }

theorem map_eq_of {rs : List Req} (h : (rs.map (·.num)).Nodup) {r : Req} (hr : r ∈ rs) (g : Req → Req) :
    (rs.map fun x => if x.num = r.num then g x else x) = rs.map fun x => if x = r then g r else x := by
  apply List.map_congr_left
  intro x hx
  by_cases hxr : x.num = r.num
  · have := nodup_key h hx hr hxr
    subst this; simp
  · rw [if_neg hxr, if_neg]
    intro e; exact hxr (by rw [e])

theorem send_sent {c : Conn} (h : TB c) (ha : Armed c) (hch : c.chan = true) {r : Req} (hr : r ∈ c.reqs) (hq : r.qos0 = false) (ht : r.tried = false) :
    TB (c.send r .sent).1 ∧ Armed (c.send r .sent).1 ∧ (c.send r .sent).2 = [.sent r.num c.now] ∧
    (c.send r .sent).1.reqs = c.reqs.map (fun x => if x.num = r.num then sentReq c x else x) ∧
    ∃ reqs timers n, (c.send r .sent).1 = { c with reqs, timers, nextTimer := n } := by
  have hall := h
  obtain ⟨a1, a2, a3, a4, a5, a6, a7, a8, a9, a10, a11⟩ := h
  have hto : ∀ x ∈ c.reqs, x.num = r.num → x = r := fun x hx e => nodup_key a1 hx hr e
  by_cases hz : r.timeout = umax ∨ r.timeout = 0
  · -- no timeout task
    have hz' : r.timeout = umax ∨ r.timeout = 0 ∨ r.pid = 0 := by rcases hz with h | h <;> simp [h]
    have hrs : (c.reqs.map fun x => if x.num = r.num then { x with tried := true, sentAt := some c.now } else x) =
        c.reqs.map (fun x => if x.num = r.num then sentReq c x else x) := by
      apply List.map_congr_left
      intro x hx
      by_cases e : x.num = r.num
      · rw [if_pos e, if_pos e, hto x hx e]
        unfold sentReq
        rw [if_pos hz]
      · rw [if_neg e, if_neg e]
    have hsend : c.send r .sent = ({ c with reqs := c.reqs.map (fun x => if x.num = r.num then sentReq c x else x) }, [.sent r.num c.now]) := by
      simp only [Conn.send, hq, Bool.false_eq_true, if_false, Conn.schedule, if_pos hz', Conn.setReq]
      rw [hrs]
    rw [hsend]
    refine ⟨?_, ?_, rfl, rfl, _, _, _, rfl⟩
    · rw [← hrs]
      apply tb_map hall
      · intro x; split <;> rfl
      · intro x; split <;> rfl
      · intro x; split <;> rfl
      · intro x; split <;> rfl
      · intro x hx hxq
        split at hxq
        · next e => rw [hto x hx e] at hxq; simp only at hxq; rw [hq] at hxq; cases hxq
        · next e => rw [if_neg e]; exact a11 x hx hxq
      · intro x hx hxt
        split
        · next e => rw [hto x hx e] at hxt; exact absurd (a8 r hr ht).2 hxt
        · rfl
      · intro x hx hxf
        split at hxf
        · cases hxf
        · next e => rw [if_neg e]; exact a8 x hx hxf
    · intro x hx hxs h0 hu
      obtain ⟨y, hy, rfl⟩ := List.mem_map.1 hx
      by_cases e : y.num = r.num
      · rw [if_pos e] at h0 hu
        simp only [sentReq, hto y hy e] at h0 hu
        rcases hz with hz | hz
        · exact absurd hz hu
        · exact absurd hz h0
      · rw [if_neg e] at hxs h0 hu ⊢
        exact ha y hy hxs h0 hu
  · -- a timeout task
    have hz' : ¬ (r.timeout = umax ∨ r.timeout = 0 ∨ r.pid = 0) := by
      rintro (e | e | e)
      · exact hz (.inl e)
      · exact hz (.inr e)
      · exact a10 r hr e
    have hrs : ((c.reqs.map fun x => if x.num = r.num then { x with tried := true, sentAt := some c.now } else x).map
        fun x => if x.num = r.num then { x with timer := some c.nextTimer } else x) =
        c.reqs.map (fun x => if x.num = r.num then sentReq c x else x) := by
      rw [List.map_map]
      apply List.map_congr_left
      intro x hx
      simp only [Function.comp]
      by_cases e : x.num = r.num
      · rw [if_pos e, if_pos e]
        simp only [e, if_true]
        rw [hto x hx e]
        unfold sentReq
        rw [if_neg hz]
      · rw [if_neg e, if_neg e, if_neg e]
    have hsend : c.send r .sent = ({ c with
          reqs := c.reqs.map (fun x => if x.num = r.num then sentReq c x else x)
          timers := c.timers ++ [{ num := c.nextTimer, pid := r.pid, due := min (c.now + r.timeout) umax, owner := some r.num }]
          nextTimer := c.nextTimer + 1 }, [.sent r.num c.now]) := by
      simp only [Conn.send, hq, Bool.false_eq_true, if_false, Conn.schedule, if_neg hz', Conn.setReq]
      rw [hrs]
    rw [hsend]
    have hmem : ∀ x' ∈ c.reqs.map (fun x => if x.num = r.num then sentReq c x else x), x' = sentReq c r ∨ (x' ∈ c.reqs ∧ x'.num ≠ r.num) := by
      intro x' hx'
      obtain ⟨y, hy, rfl⟩ := List.mem_map.1 hx'
      by_cases e : y.num = r.num
      · rw [if_pos e, hto y hy e]; exact .inl rfl
      · rw [if_neg e]; exact .inr ⟨hy, e⟩
    have htm : (sentReq c r).timer = some c.nextTimer := by unfold sentReq; rw [if_neg hz]
    refine ⟨?_, ?_, rfl, rfl, _, _, _, rfl⟩
    · constructor
      · show (List.map _ (List.map _ _)).Nodup
        rw [map_num (by intro x; rfl)]; exact a1
      · show (List.map _ (List.map _ _)).Nodup
        rw [map_pid (by intro x; rfl)]; exact a2
      · simp only [List.map_append, List.map_cons, List.map_nil]
        rw [List.nodup_append]
        refine ⟨a3, by simp, ?_⟩
        intro x hx y hy
        simp only [List.mem_singleton] at hy
        obtain ⟨t, ht, rfl⟩ := List.mem_map.1 hx
        have := a5 t ht
        omega
      · intro x hx
        rcases hmem x hx with rfl | ⟨hx, _⟩
        · exact a4 r hr
        · exact a4 x hx
      · intro t ht
        simp only [List.mem_append, List.mem_singleton] at ht
        rcases ht with ht | rfl
        · have := a5 t ht; simp only; omega
        · simp
      · intro x hx n hn
        rcases hmem x hx with rfl | ⟨hx, _⟩
        · rw [htm] at hn
          injection hn with hn
          exact ⟨_, List.mem_append_right _ (List.mem_singleton.2 rfl), hn, rfl⟩
        · obtain ⟨t, ht, b1, b2⟩ := a6 x hx n hn
          exact ⟨t, List.mem_append_left _ ht, b1, b2⟩
      · intro t ht n hn
        rcases List.mem_append.1 ht with ht | ht
        · obtain ⟨x, hx, b1, b2, b3⟩ := a7 t ht n hn
          have hne : x.num ≠ r.num := by
            intro e
            rw [hto x hx e, (a8 r hr ‹_›).2] at b2; cases b2
          refine ⟨x, ?_, b1, b2, b3⟩
          exact List.mem_map.2 ⟨x, hx, if_neg hne⟩
        · simp only [List.mem_singleton] at ht
          subst ht
          injection hn with hn
          refine ⟨sentReq c r, List.mem_map.2 ⟨r, hr, if_pos rfl⟩, hn, htm, rfl, fun e => hz (.inr e), fun e => hz (.inl e), c.now, rfl, rfl⟩
      · intro x hx hxf
        rcases hmem x hx with rfl | ⟨hx, _⟩
        · cases hxf
        · exact a8 x hx hxf
      · intro hc; simp only at hc; rw [hch] at hc; cases hc
      · intro x hx
        rcases hmem x hx with rfl | ⟨hx, _⟩
        · exact a10 r hr
        · exact a10 x hx
      · intro x hx hxq
        rcases hmem x hx with rfl | ⟨hx, _⟩
        · simp only [sentReq] at hxq; rw [hq] at hxq; cases hxq
        · exact a11 x hx hxq
    · intro x hx hxs h0 hu
      rcases hmem x hx with rfl | ⟨hx, _⟩
      · rw [htm]; simp
      · exact ha x hx hxs h0 hu

/-! ### Log -/

theorem configured_snoc (log : List Entry) (e : Entry) : configured (log ++ [e]) = match e with
    | .connect ms => if ms = 0 then none else some (ms * 1000000)
    | _ => configured log := by
  unfold configured
  rw [List.foldl_append]
  rfl

theorem sentAt_snoc {log : List Entry} {e : Entry} {n t : Nat} :
    SentAt (log ++ [e]) n t ↔ e = .sent n t ∨ (e ≠ .down ∧ SentAt log n t) := by
  constructor
  · rintro ⟨pre, post, h1, h2⟩
    rcases List.eq_nil_or_concat post with rfl | ⟨p, x, rfl⟩
    · have := List.append_inj' h1 rfl
      simp at this
      exact .inl this.2
    · rw [List.concat_eq_append, ← List.cons_append, ← List.append_assoc] at h1
      have := List.append_inj' h1 rfl
      simp only [List.cons.injEq, and_true] at this
      obtain ⟨rfl, rfl⟩ := this
      refine .inr ⟨?_, pre, p, rfl, ?_⟩
      · rintro rfl; simp at h2
      · intro h; simp [h] at h2
  · rintro (rfl | ⟨h1, pre, post, rfl, h2⟩)
    · exact ⟨log, [], rfl, by simp⟩
    · exact ⟨pre, post ++ [e], by simp, by simp [h2, Ne.symm h1]⟩

def Fits : Option Nat → Nat → Prop
  | some T, n => n = T ∧ n ≠ 0 ∧ n ≠ umax
  | none, n => n = 0 ∨ n = umax

def isDone (n : Nat) : Entry → Bool
  | .done m _ _ => m = n
  | _ => false

structure LI (c : Conn) (log : List Entry) : Prop where
  opT : Fits (configured log) c.opTimeout
  req : ∀ r ∈ c.reqs, ∃ pre post, log = pre ++ .submitted r.num :: post ∧ Fits (configured pre) r.timeout
  sent : ∀ r ∈ c.reqs, ∀ t0, r.sentAt = some t0 ↔ SentAt log r.num t0
  sub : ∀ n, .submitted n ∈ log → n < c.nextReq ∧ ((∃ r ∈ c.reqs, r.num = n) ∨ ∃ res t, .done n res t ∈ log)
  done : ∀ n res t, .done n res t ∈ log → n < c.nextReq ∧ ∀ r ∈ c.reqs, r.num ≠ n
  uniq : ∀ n, log.count (.submitted n) ≤ 1
  once : ∀ n, (log.filter (isDone n)).length ≤ 1
  valid : .invalid ∉ log
  sentlt : ∀ n t, .sent n t ∈ log → n < c.nextReq

theorem li_init : LI {} [] := by
  constructor <;> simp [configured, Fits]

/-- The requests are the same but for what the log does not show. -/
theorem li_same {c c' : Conn} {log : List Entry} (h : LI c log) (ho : c'.opTimeout = c.opTimeout) (hn : c'.nextReq = c.nextReq)
    (g : Req → Req) (hr : c'.reqs = c.reqs.map g)
    (hg : ∀ r ∈ c.reqs, (g r).num = r.num ∧ (g r).timeout = r.timeout ∧ (g r).sentAt = r.sentAt) : LI c' log := by
  have hmem : ∀ x ∈ c'.reqs, ∃ y ∈ c.reqs, x.num = y.num ∧ x.timeout = y.timeout ∧ x.sentAt = y.sentAt := by
    intro x hx
    rw [hr] at hx
    obtain ⟨y, hy, rfl⟩ := List.mem_map.1 hx
    exact ⟨y, hy, hg y hy⟩
  constructor
  · rw [ho]; exact h.opT
  · intro x hx
    obtain ⟨y, hy, e1, e2, e3⟩ := hmem x hx
    rw [e1, e2]; exact h.req y hy
  · intro x hx
    obtain ⟨y, hy, e1, e2, e3⟩ := hmem x hx
    rw [e1, e3]; exact h.sent y hy
  · intro n hns
    obtain ⟨h1, h2⟩ := h.sub n hns
    refine ⟨by rw [hn]; exact h1, ?_⟩
    rcases h2 with ⟨r, hr', e⟩ | h2
    · exact .inl ⟨g r, by rw [hr]; exact List.mem_map.2 ⟨r, hr', rfl⟩, by rw [(hg r hr').1, e]⟩
    · exact .inr h2
  · intro n res t hd
    obtain ⟨h1, h2⟩ := h.done n res t hd
    refine ⟨by rw [hn]; exact h1, ?_⟩
    intro x hx
    obtain ⟨y, hy, e1, _⟩ := hmem x hx
    rw [e1]; exact h2 y hy
  · exact h.uniq
  · exact h.once
  · exact h.valid
  · intro n t hs; rw [hn]; exact h.sentlt n t hs

/-- An entry that says nothing about requests. -/
theorem li_note {c : Conn} {log : List Entry} (h : LI c log) (n : Nat) : LI c (log ++ [.written n]) := by
  constructor
  · rw [configured_snoc]; exact h.opT
  · intro r hr
    obtain ⟨pre, post, e1, e2⟩ := h.req r hr
    exact ⟨pre, post ++ [.written n], by rw [e1]; simp, e2⟩
  · intro r hr t0
    rw [sentAt_snoc, h.sent r hr t0]; simp
  · intro m hm; have := h.sub m (by simpa using hm); simpa using this
  · intro m res t hm; exact h.done m res t (by simpa using hm)
  · intro m; have := h.uniq m; simpa using this
  · intro m; have := h.once m; simpa [isDone] using this
  · have := h.valid; simpa using this
  · intro m t hm; exact h.sentlt m t (by simpa using hm)

/-- A request is complete. -/
theorem li_done {c c' : Conn} {log : List Entry} (h : LI c log) (hnum : ∀ r ∈ c.reqs, r.num < c.nextReq)
    {r : Req} (hr : r ∈ c.reqs) (ho : c'.opTimeout = c.opTimeout) (hn : c'.nextReq = c.nextReq)
    (hreqs : c'.reqs = c.reqs.filter (·.num ≠ r.num)) (res : Result) (t : Nat) : LI c' (log ++ [.done r.num res t]) := by
  have hmem : ∀ x ∈ c'.reqs, x ∈ c.reqs ∧ x.num ≠ r.num := by
    intro x hx
    rw [hreqs, List.mem_filter] at hx
    simpa using hx
  constructor
  · rw [configured_snoc, ho]; exact h.opT
  · intro x hx
    obtain ⟨pre, post, e1, e2⟩ := h.req x (hmem x hx).1
    exact ⟨pre, post ++ [.done r.num res t], by rw [e1]; simp, e2⟩
  · intro x hx t0
    rw [sentAt_snoc, h.sent x (hmem x hx).1 t0]; simp
  · intro m hm
    obtain ⟨h1, h2⟩ := h.sub m (by simpa using hm)
    refine ⟨by rw [hn]; exact h1, ?_⟩
    rcases h2 with ⟨x, hx, e⟩ | ⟨res', t', e⟩
    · by_cases hxr : x.num = r.num
      · exact .inr ⟨res, t, by simp [← e, hxr]⟩
      · exact .inl ⟨x, by rw [hreqs, List.mem_filter]; exact ⟨hx, by simpa using hxr⟩, e⟩
    · exact .inr ⟨res', t', by simp [e]⟩
  · intro m res' t' hm
    rcases List.mem_append.1 hm with hm | hm
    · obtain ⟨h1, h2⟩ := h.done m res' t' hm
      exact ⟨by rw [hn]; exact h1, fun x hx => h2 x (hmem x hx).1⟩
    · simp only [List.mem_singleton] at hm
      injection hm with h1 _ _
      subst h1
      exact ⟨by rw [hn]; exact hnum r hr, fun x hx => (hmem x hx).2⟩
  · intro m; have := h.uniq m; simpa using this
  · intro m
    rw [List.filter_append, List.length_append]
    by_cases hm : m = r.num
    · subst hm
      have : log.filter (isDone r.num) = [] := by
        rw [List.filter_eq_nil_iff]
        intro e he hd
        cases e with
        | done k res' t' =>
          simp only [isDone, decide_eq_true_eq] at hd
          subst hd
          exact (h.done _ res' t' he).2 r hr rfl
        | _ => cases hd
      rw [this]; simp [isDone]
    · have := h.once m
      simp only [isDone, List.filter_cons, decide_eq_true_eq]
      rw [if_neg (Ne.symm hm)]
      simpa using this
  · have := h.valid; simpa using this
  · intro m t hm; rw [hn]; exact h.sentlt m t (by simpa using hm)

/-- A request is sent. -/
theorem li_sent {c c' : Conn} {log : List Entry} (h : LI c log) (hnd : (c.reqs.map (·.num)).Nodup) (hnum : ∀ r ∈ c.reqs, r.num < c.nextReq)
    {r : Req} (hr : r ∈ c.reqs) (hs : r.sentAt = none) (ho : c'.opTimeout = c.opTimeout) (hn : c'.nextReq = c.nextReq) (t : Nat)
    (f : Req → Req) (hreqs : c'.reqs = c.reqs.map fun x => if x.num = r.num then f x else x)
    (hf : ∀ x, (f x).num = x.num ∧ (f x).timeout = x.timeout ∧ (f x).sentAt = some t) : LI c' (log ++ [.sent r.num t]) := by
  have hmem : ∀ x ∈ c'.reqs, ∃ y ∈ c.reqs, x.num = y.num ∧ x.timeout = y.timeout ∧ (y = r ∧ x.sentAt = some t ∨ y.num ≠ r.num ∧ x.sentAt = y.sentAt) := by
    intro x hx
    rw [hreqs] at hx
    obtain ⟨y, hy, rfl⟩ := List.mem_map.1 hx
    by_cases e : y.num = r.num
    · rw [if_pos e]; exact ⟨y, hy, (hf y).1, (hf y).2.1, .inl ⟨nodup_key hnd hy hr e, (hf y).2.2⟩⟩
    · rw [if_neg e]; exact ⟨y, hy, rfl, rfl, .inr ⟨e, rfl⟩⟩
  constructor
  · rw [configured_snoc, ho]; exact h.opT
  · intro x hx
    obtain ⟨y, hy, e1, e2, _⟩ := hmem x hx
    obtain ⟨pre, post, e3, e4⟩ := h.req y hy
    exact ⟨pre, post ++ [.sent r.num t], by rw [e3, e1]; simp, by rw [e2]; exact e4⟩
  · intro x hx t0
    obtain ⟨y, hy, e1, _, e3⟩ := hmem x hx
    rw [sentAt_snoc, e1]
    rcases e3 with ⟨rfl, e3⟩ | ⟨e2, e3⟩
    · rw [e3]
      have hno : ∀ t', ¬ SentAt log y.num t' := fun t' e => by
        rw [← h.sent y hr t', hs] at e; cases e
      simp [hno]
    · rw [e3, h.sent y hy t0]
      simp [Ne.symm e2]
  · intro m hm
    obtain ⟨h1, h2⟩ := h.sub m (by simpa using hm)
    refine ⟨by rw [hn]; exact h1, ?_⟩
    rcases h2 with ⟨x, hx, e⟩ | ⟨res', t', e⟩
    · refine .inl ⟨_, by rw [hreqs]; exact List.mem_map.2 ⟨x, hx, rfl⟩, ?_⟩
      split
      · rw [(hf x).1, e]
      · exact e
    · exact .inr ⟨res', t', by simp [e]⟩
  · intro m res' t' hm
    obtain ⟨h1, h2⟩ := h.done m res' t' (by simpa using hm)
    refine ⟨by rw [hn]; exact h1, ?_⟩
    intro x hx
    obtain ⟨y, hy, e1, _⟩ := hmem x hx
    rw [e1]; exact h2 y hy
  · intro m; have := h.uniq m; simpa using this
  · intro m; have := h.once m; simpa [isDone] using this
  · have := h.valid; simpa using this
  · intro m t' hm
    rcases List.mem_append.1 hm with hm | hm
    · rw [hn]; exact h.sentlt m t' hm
    · simp only [List.mem_singleton] at hm
      injection hm with h1 h2
      rw [hn, h1]; exact hnum r hr

theorem li_down {c c' : Conn} {log : List Entry} (h : LI c log) (ho : c'.opTimeout = c.opTimeout) (hn : c'.nextReq = c.nextReq)
    (g : Req → Req) (hr : c'.reqs = c.reqs.map g) (hg : ∀ r, (g r).num = r.num ∧ (g r).timeout = r.timeout ∧ (g r).sentAt = none) :
    LI c' (log ++ [.down]) := by
  have hmem : ∀ x ∈ c'.reqs, ∃ y ∈ c.reqs, x.num = y.num ∧ x.timeout = y.timeout ∧ x.sentAt = none := by
    intro x hx
    rw [hr] at hx
    obtain ⟨y, hy, rfl⟩ := List.mem_map.1 hx
    exact ⟨y, hy, hg y⟩
  constructor
  · rw [configured_snoc, ho]; exact h.opT
  · intro x hx
    obtain ⟨y, hy, e1, e2, _⟩ := hmem x hx
    obtain ⟨pre, post, e3, e4⟩ := h.req y hy
    exact ⟨pre, post ++ [.down], by rw [e3, e1]; simp, by rw [e2]; exact e4⟩
  · intro x hx t0
    obtain ⟨y, hy, _, _, e3⟩ := hmem x hx
    rw [sentAt_snoc, e3]; simp
  · intro m hm
    obtain ⟨h1, h2⟩ := h.sub m (by simpa using hm)
    refine ⟨by rw [hn]; exact h1, ?_⟩
    rcases h2 with ⟨x, hx, e⟩ | ⟨res', t', e⟩
    · exact .inl ⟨g x, by rw [hr]; exact List.mem_map.2 ⟨x, hx, rfl⟩, by rw [(hg x).1, e]⟩
    · exact .inr ⟨res', t', by simp [e]⟩
  · intro m res' t' hm
    obtain ⟨h1, h2⟩ := h.done m res' t' (by simpa using hm)
    refine ⟨by rw [hn]; exact h1, ?_⟩
    intro x hx
    obtain ⟨y, hy, e1, _⟩ := hmem x hx
    rw [e1]; exact h2 y hy
  · intro m; have := h.uniq m; simpa using this
  · intro m; have := h.once m; simpa [isDone] using this
  · have := h.valid; simpa using this
  · intro m t hm; rw [hn]; exact h.sentlt m t (by simpa using hm)

theorem li_submit {c c' : Conn} {log : List Entry} (h : LI c log) {r : Req} (hrn : r.num = c.nextReq)
    (hrt : r.timeout = c.opTimeout) (hrs : r.sentAt = none) (ho : c'.opTimeout = c.opTimeout) (hn : c'.nextReq = c.nextReq + 1)
    (hreqs : c'.reqs = c.reqs ++ [r]) : LI c' (log ++ [.submitted c.nextReq]) := by
  have hmem : ∀ x ∈ c'.reqs, x ∈ c.reqs ∨ x = r := by intro x hx; rw [hreqs] at hx; simpa using hx
  constructor
  · rw [configured_snoc, ho]; exact h.opT
  · intro x hx
    rcases hmem x hx with hx | rfl
    · obtain ⟨pre, post, e3, e4⟩ := h.req x hx
      exact ⟨pre, post ++ [.submitted c.nextReq], by rw [e3]; simp, e4⟩
    · exact ⟨log, [], by rw [hrn], by rw [hrt]; exact h.opT⟩
  · intro x hx t0
    rw [sentAt_snoc]
    rcases hmem x hx with hx | rfl
    · rw [h.sent x hx t0]; simp
    · rw [hrs]
      simp only [reduceCtorEq, ne_eq, not_false_eq_true, true_and, false_or, false_iff]
      rintro ⟨pre, post, e, _⟩
      have := h.sentlt x.num t0 (by rw [e]; simp)
      omega
  · intro m hm
    rcases List.mem_append.1 hm with hm | hm
    · obtain ⟨h1, h2⟩ := h.sub m hm
      refine ⟨by rw [hn]; omega, ?_⟩
      rcases h2 with ⟨x, hx, e⟩ | ⟨res', t', e⟩
      · exact .inl ⟨x, by rw [hreqs]; simp [hx], e⟩
      · exact .inr ⟨res', t', by simp [e]⟩
    · simp only [List.mem_singleton] at hm
      injection hm with hm
      subst hm
      exact ⟨by omega, .inl ⟨r, by rw [hreqs]; simp, hrn⟩⟩
  · intro m res' t' hm
    obtain ⟨h1, h2⟩ := h.done m res' t' (by simpa using hm)
    refine ⟨by omega, ?_⟩
    intro x hx
    rcases hmem x hx with hx | rfl
    · exact h2 x hx
    · omega
  · intro m
    rw [List.count_append]
    by_cases hm : m = c.nextReq
    · subst hm
      have : log.count (.submitted c.nextReq) = 0 := by
        rw [List.count_eq_zero]; intro hx; have := (h.sub _ hx).1; omega
      rw [this]; simp
    · have := h.uniq m
      simp [Ne.symm hm, this]
  · intro m; have := h.once m; simpa [isDone] using this
  · have := h.valid; simpa using this
  · intro m t hm; have := h.sentlt m t (by simpa using hm); omega

theorem li_connect {c : Conn} {log : List Entry} (h : LI c log) {ms : Nat} (hms : ms < 4294967296) :
    LI { c with opTimeout := if ms = 0 then umax else ms * 1000000 } (log ++ [.connect ms]) := by
  constructor
  · rw [configured_snoc]
    simp only
    by_cases h0 : ms = 0
    · rw [if_pos h0, if_pos h0]; exact .inr rfl
    · rw [if_neg h0, if_neg h0]; refine ⟨rfl, by omega, ?_⟩; unfold umax; omega
  · intro x hx
    obtain ⟨pre, post, e3, e4⟩ := h.req x hx
    exact ⟨pre, post ++ [.connect ms], by rw [e3]; simp, e4⟩
  · intro x hx t0
    rw [sentAt_snoc, h.sent x hx t0]; simp
  · intro m hm; have := h.sub m (by simpa using hm); simpa using this
  · intro m res t hm; exact h.done m res t (by simpa using hm)
  · intro m; have := h.uniq m; simpa using this
  · intro m; have := h.once m; simpa [isDone] using this
  · have := h.valid; simpa using this
  · intro m t hm; exact h.sentlt m t (by simpa using hm)

/-! ### Reachable states -/

structure Good (c : Conn) (log : List Entry) : Prop where
  tb : TB c
  armed : Armed c
  li : LI c log

theorem good_complete {c : Conn} {log : List Entry} (h : Good c log) {r : Req} (hr : r ∈ c.reqs) (res : Result) :
    Good (c.complete r res).1 (log ++ (c.complete r res).2) := by
  obtain ⟨c1, c2, c3⟩ := complete_ok h.tb h.armed hr res
  rw [c3]
  exact ⟨c1, c2, li_done (c' := (c.complete r res).1) h.li h.tb.numLt hr rfl rfl rfl res c.now⟩

theorem good_run {c : Conn} {log : List Entry} (h : Good c log) (num : Nat) : Good (step c (.run num)).1 (log ++ (step c (.run num)).2) := by
  simp only [step]
  cases hf : c.timers.find? (·.num = num) with
  | none => simpa using h
  | some t =>
    have ht := List.mem_of_find?_eq_some hf
    obtain ⟨e1, e2, e3, rs, ts, e4⟩ := expire_ok h.tb h.armed ht
    simp only
    refine ⟨e1, e2, ?_⟩
    rcases e3 with ⟨_, o2, o3⟩ | ⟨r, hr, _, _, o2, o3⟩
    · rw [o2, List.append_nil]
      exact li_same h.li (by rw [e4]) (by rw [e4]) id (by simpa using o3) (fun _ _ => ⟨rfl, rfl, rfl⟩)
    · rw [o2]
      exact li_done h.li h.tb.numLt hr (by rw [e4]) (by rw [e4]) o3 _ _

theorem good_send {c : Conn} {log : List Entry} (h : Good c log) (hch : c.chan = true) {r : Req} (hr : r ∈ c.reqs) (ht : r.tried = false)
    (s : Sending) (hs : r.qos0 = true → s ≠ .refused) : Good (c.send r s).1 (log ++ (c.send r s).2) := by
  have hto : ∀ x ∈ c.reqs, x.num = r.num → x = r := fun x hx e => nodup_key h.tb.numNd hx hr e
  have hnone := h.tb.tried r hr ht
  cases s with
  | error => exact good_complete h hr .failed
  | refused =>
    have hq : r.qos0 = false := by cases e : r.qos0 <;> simp_all
    have hl : LI (c.setReq r.num fun r => { r with tried := true }) log := by
      refine li_same (c' := c.setReq r.num fun r => { r with tried := true }) h.li rfl rfl (fun x => if x.num = r.num then { x with tried := true } else x) rfl ?_
      intro x _; split <;> exact ⟨rfl, rfl, rfl⟩
    refine ⟨?_, ?_, by simpa [Conn.send] using hl⟩
    · apply tb_map h.tb (g := fun x => if x.num = r.num then { x with tried := true } else x)
      · intro x; split <;> rfl
      · intro x; split <;> rfl
      · intro x; split <;> rfl
      · intro x; split <;> rfl
      · intro x hx hxq
        split at hxq
        · next e => rw [if_pos e]; exact h.tb.qos0 x hx hxq
        · next e => rw [if_neg e]; exact h.tb.qos0 x hx hxq
      · intro x hx _; split <;> rfl
      · intro x hx hxf
        split at hxf
        · cases hxf
        · next e => rw [if_neg e]; exact h.tb.tried x hx hxf
    · intro x hx
      obtain ⟨y, hy, rfl⟩ := List.mem_map.1 hx
      split
      · exact h.armed y hy
      · exact h.armed y hy
  | sent =>
    cases hq : r.qos0 with
    | false =>
      obtain ⟨s1, s2, s3, s4, rs, ts, n, s5⟩ := send_sent h.tb h.armed hch hr hq ht
      refine ⟨s1, s2, ?_⟩
      rw [s3]
      exact li_sent h.li h.tb.numNd h.tb.numLt hr hnone.1 (by rw [s5]) (by rw [s5]) c.now (sentReq c) s4 (fun x => ⟨rfl, rfl, rfl⟩)
    | true =>
      have hsend : c.send r .sent = ({ c with reqs := c.reqs.filter (·.num ≠ r.num), timers := c.timers.map fun t => t },
          [.sent r.num c.now, .done r.num .ok c.now]) := by
        have hrs : (c.reqs.map fun x => if x.num = r.num then { x with tried := true, sentAt := some c.now } else x).filter (·.num ≠ r.num) =
            c.reqs.filter (·.num ≠ r.num) := by
          have : ∀ l : List Req, (l.map fun x => if x.num = r.num then { x with tried := true, sentAt := some c.now } else x).filter (·.num ≠ r.num) =
              l.filter (·.num ≠ r.num) := by
            intro l
            induction l with
            | nil => rfl
            | cons x l ih =>
              rw [List.map_cons, List.filter_cons, List.filter_cons, ih]
              by_cases e : x.num = r.num
              · rw [if_pos e, if_neg (by simp [e]), if_neg (by simp [e])]
              · rw [if_neg e]
          exact this _
        simp only [Conn.send, hq, if_true, schedule_qos0, Conn.setReq, Conn.complete, hnone.2]
        rw [hrs]
        simp
      rw [hsend]
      obtain ⟨c1, c2, _⟩ := complete_ok h.tb h.armed hr .ok
      have hc : (c.complete r .ok).1 = { c with reqs := c.reqs.filter (·.num ≠ r.num), timers := c.timers.map fun t => t } := by
        simp [Conn.complete, hnone.2]
      rw [hc] at c1 c2
      refine ⟨c1, c2, ?_⟩
      have h1 : LI (c.setReq r.num fun r => { r with tried := true, sentAt := some c.now }) (log ++ [.sent r.num c.now]) :=
        li_sent (c' := c.setReq r.num fun r => { r with tried := true, sentAt := some c.now }) h.li h.tb.numNd h.tb.numLt hr hnone.1 rfl rfl c.now (fun r => { r with tried := true, sentAt := some c.now }) rfl (fun x => ⟨rfl, rfl, rfl⟩)
      have hmem : { r with tried := true, sentAt := some c.now } ∈ (c.setReq r.num fun r => { r with tried := true, sentAt := some c.now }).reqs :=
        List.mem_map.2 ⟨r, hr, by rw [if_pos rfl]⟩
      rw [List.append_cons]
      refine li_done (c' := { c with reqs := c.reqs.filter (·.num ≠ r.num), timers := c.timers.map fun t => t })
        (r := { r with tried := true, sentAt := some c.now }) h1 ?_ hmem rfl rfl ?_ .ok c.now
      · intro x hx
        obtain ⟨y, hy, rfl⟩ := List.mem_map.1 hx
        have := h.tb.numLt y hy
        split <;> exact this
      · have : ∀ l : List Req, l.filter (fun x => x.num ≠ r.num) = (l.map fun x => if x.num = r.num then { x with tried := true, sentAt := some c.now } else x).filter (·.num ≠ r.num) := by
          intro l
          induction l with
          | nil => rfl
          | cons x l ih =>
            rw [List.map_cons, List.filter_cons, List.filter_cons, ih]
            by_cases e : x.num = r.num
            · rw [if_pos e, if_neg (by simp [e]), if_neg (by simp [e])]
            · rw [if_neg e]
        exact this _

theorem good_step {c : Conn} {log : List Entry} (h : Good c log) {e : Event} (hen : Enabled c e) :
    Good (step c e).1 (log ++ (step c e).2) := by
  cases e with
  | tick ns =>
    simp only [step, List.append_nil]
    exact ⟨⟨h.tb.numNd, h.tb.pidNd, h.tb.tNd, h.tb.numLt, h.tb.tLt, h.tb.fwd, h.tb.back, h.tb.tried, h.tb.chan, h.tb.pid, h.tb.qos0⟩, h.armed,
      li_same h.li rfl rfl id (by simp) (fun _ _ => ⟨rfl, rfl, rfl⟩)⟩
  | connect ms =>
    simp only [step]
    exact ⟨⟨h.tb.numNd, h.tb.pidNd, h.tb.tNd, h.tb.numLt, h.tb.tLt, h.tb.fwd, h.tb.back, h.tb.tried, h.tb.chan, h.tb.pid, h.tb.qos0⟩, h.armed,
      li_connect h.li hen.2⟩
  | up =>
    simp only [step, List.append_nil]
    exact ⟨⟨h.tb.numNd, h.tb.pidNd, h.tb.tNd, h.tb.numLt, h.tb.tLt, h.tb.fwd, h.tb.back, h.tb.tried, (by simp), h.tb.pid, h.tb.qos0⟩, h.armed,
      li_same h.li rfl rfl id (by simp) (fun _ _ => ⟨rfl, rfl, rfl⟩)⟩
  | down =>
    obtain ⟨k1, k2, k3, ⟨g, k4, k5⟩, rs, ts, k6⟩ := cancelAll_ok c.timers h.tb rfl
    simp only [step]
    rw [k2, List.nil_append]
    have hnt : ∀ r ∈ (c.cancelAll c.timers).1.reqs, r.timer = none := by
      intro r hr
      cases hn : r.timer with
      | none => rfl
      | some n =>
        obtain ⟨t, ht, _⟩ := k1.fwd r hr n hn
        rw [k3] at ht; cases ht
    refine ⟨?_, ?_, ?_⟩
    · have := tb_map k1 (g := fun r => { r with tried := false, sentAt := none }) (by intro r; rfl) (by intro r; rfl) (by intro r; rfl) (by intro r; rfl)
        (by intro r _ _; rfl) (by intro r hr hrt; exact absurd (hnt r hr) hrt) (by intro r hr _; exact ⟨rfl, hnt r hr⟩)
      exact ⟨this.numNd, this.pidNd, this.tNd, this.numLt, this.tLt, this.fwd, this.back, this.tried, fun _ => k3, this.pid, this.qos0⟩
    · intro r hr hrs
      obtain ⟨y, _, rfl⟩ := List.mem_map.1 hr
      exact absurd rfl hrs
    · refine li_down h.li (by rw [k6]) (by rw [k6]) (fun r => { (g r) with tried := false, sentAt := none }) (by simp only [k4, List.map_map]; rfl) ?_
      intro r
      rcases k5 r with e | e <;> rw [e] <;> exact ⟨rfl, rfl, rfl⟩
  | submit pid q =>
    obtain ⟨hp0, hp⟩ := hen
    simp only [step]
    have hmem : ∀ x ∈ c.reqs ++ [{ num := c.nextReq, pid, qos0 := q, timeout := c.opTimeout : Req }], x ∈ c.reqs ∨
        x = { num := c.nextReq, pid, qos0 := q, timeout := c.opTimeout : Req } := by intro x hx; simpa using hx
    refine ⟨?_, ?_, li_submit h.li (r := { num := c.nextReq, pid, qos0 := q, timeout := c.opTimeout }) rfl rfl rfl rfl rfl rfl⟩
    · constructor
      · simp only [List.map_append, List.map_cons, List.map_nil, List.nodup_append]
        refine ⟨h.tb.numNd, by simp, ?_⟩
        intro x hx y hy
        simp only [List.mem_singleton] at hy
        obtain ⟨z, hz, rfl⟩ := List.mem_map.1 hx
        have := h.tb.numLt z hz
        omega
      · simp only [List.map_append, List.map_cons, List.map_nil, List.nodup_append]
        refine ⟨h.tb.pidNd, by simp, ?_⟩
        intro x hx y hy
        simp only [List.mem_singleton] at hy
        obtain ⟨z, hz, rfl⟩ := List.mem_map.1 hx
        rw [hy]; exact hp z hz
      · exact h.tb.tNd
      · intro x hx
        rcases hmem x hx with hx | rfl
        · have := h.tb.numLt x hx; simp only; omega
        · simp
      · exact h.tb.tLt
      · intro x hx n hn
        rcases hmem x hx with hx | rfl
        · exact h.tb.fwd x hx n hn
        · cases hn
      · intro t ht n hn
        obtain ⟨x, hx, b⟩ := h.tb.back t ht n hn
        exact ⟨x, List.mem_append_left _ hx, b⟩
      · intro x hx hxf
        rcases hmem x hx with hx | rfl
        · exact h.tb.tried x hx hxf
        · exact ⟨rfl, rfl⟩
      · exact h.tb.chan
      · intro x hx
        rcases hmem x hx with hx | rfl
        · exact h.tb.pid x hx
        · exact hp0
      · intro x hx hxq
        rcases hmem x hx with hx | rfl
        · exact h.tb.qos0 x hx hxq
        · rfl
    · intro x hx hxs
      rcases hmem x hx with hx | rfl
      · exact h.armed x hx hxs
      · exact absurd rfl hxs
  | send pid s =>
    obtain ⟨hch, r, hf, ht, hs⟩ := hen
    simp only [step, hf]
    exact good_send h hch (find_mem hf).1 ht s hs
  | write pid =>
    obtain ⟨_, r, hf, _⟩ := hen
    simp only [step, hf]
    exact ⟨h.tb, h.armed, li_note h.li r.num⟩
  | ack pid =>
    obtain ⟨_, r, hf, _⟩ := hen
    simp only [step, Conn.requestComplete, hf]
    exact good_complete h (find_mem hf).1 .ok
  | fail pid =>
    obtain ⟨r, hf⟩ := hen
    simp only [step, Conn.requestComplete, hf]
    exact good_complete h (find_mem hf).1 .failed
  | run num => exact good_run h num

theorem reachable_good {c : Conn} {log : List Entry} (h : Reachable c log) : Good c log := by
  induction h with
  | init => exact ⟨by constructor <;> simp, (by intro r hr; cases hr), li_init⟩
  | step e _ hen ih => exact good_step ih hen

end Mqtt.Timeout311
