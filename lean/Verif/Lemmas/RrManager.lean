import Verif.Spec.RrManager

/-!
Invariant of the subscription manager: for each filter its record agrees with the log.
-/
namespace Mqtt.Rr

/-- The entry does not matter for a filter. -/
def Trace.still (f : Bytes) : Trace → Bool
  | .issued _ g | .finished _ g _ | .acquired _ g _ | .released _ g => g != f
  | .status s => s.type != .subscriptionEnded || s.filter != f
  | .sessionLost => false
  | .closed => true

theorem outstanding_append (a b : List Trace) (x : Action) (f : Bytes) :
    outstanding (a ++ b) x f = outstanding a x f + outstanding b x f := by
  simp [outstanding]

theorem outstanding_one (a : List Trace) (e : Trace) (x : Action) (f : Bytes) :
    outstanding (a ++ [e]) x f = outstanding a x f + e.change x f := by
  simp [outstanding]

theorem change_still {e : Trace} {f : Bytes} (h : e.still f = true) (x : Action) : e.change x f = 0 := by
  cases e <;> simp_all [Trace.still, Trace.change]

theorem outstanding_still {new : List Trace} {f : Bytes} (h : ∀ e ∈ new, e.still f = true) (log : List Trace)
    (x : Action) : outstanding (log ++ new) x f = outstanding log x f := by
  rw [outstanding_append]
  have : outstanding new x f = 0 := by
    induction new with
    | nil => rfl
    | cons e new ih =>
      have h1 := ih fun e he => h e (by simp [he])
      have h2 := change_still (h e (by simp)) x
      simp only [outstanding, List.map_cons, List.sum_cons] at h1 ⊢
      omega
  omega

theorem needs_one (log : List Trace) (e : Trace) (i : Nat) (f : Bytes) :
    needs (log ++ [e]) i f = (match e with
      | .acquired j g _ => if j = i ∧ g = f then true else needs log i f
      | .released j g => if j = i ∧ g = f then false else needs log i f
      | .status s => if s.type = .subscriptionEnded ∧ s.op = i ∧ s.filter = f then false else needs log i f
      | _ => needs log i f) := by
  simp only [needs, List.foldl_append, List.foldl_cons, List.foldl_nil]
  cases e <;> rfl

theorem broker_one (log : List Trace) (e : Trace) (f : Bytes) :
    broker (log ++ [e]) f = (match e with
      | .finished .subscribe g ok => if g = f then ok || broker log f else broker log f
      | .finished .unsubscribe g ok => if g = f then !ok && broker log f else broker log f
      | .sessionLost => false
      | _ => broker log f) := by
  simp only [broker, List.foldl_append, List.foldl_cons, List.foldl_nil]
  cases e with
  | finished a g ok => cases a <;> rfl
  | _ => rfl

theorem kindOf_one (log : List Trace) (e : Trace) (f : Bytes) :
    kindOf (log ++ [e]) f = (match e with
      | .acquired _ g k => if g = f then some k else kindOf log f
      | _ => kindOf log f) := by
  simp only [kindOf, List.foldl_append, List.foldl_cons, List.foldl_nil]
  cases e <;> rfl

theorem append_induct {new : List Trace} {α : Type} (P : Trace → Prop) (F : List Trace → α)
    (h1 : ∀ log e, P e → F (log ++ [e]) = F log) (h : ∀ e ∈ new, P e) (log : List Trace) :
    F (log ++ new) = F log := by
  induction new generalizing log with
  | nil => simp
  | cons e new ih =>
    rw [show log ++ e :: new = (log ++ [e]) ++ new by simp, ih (fun e he => h e (by simp [he])),
      h1 log e (h e (by simp))]

theorem needs_still {new : List Trace} {f : Bytes} (h : ∀ e ∈ new, e.still f = true) (log : List Trace) (i : Nat) :
    needs (log ++ new) i f = needs log i f :=
  append_induct (·.still f = true) (fun l => needs l i f) (fun log e he => by
    rw [needs_one]
    cases e <;> simp_all [Trace.still]
    intro _
    rcases he with he | he
    · exact .inl he
    · exact .inr (.inr he)) h log

theorem broker_still {new : List Trace} {f : Bytes} (h : ∀ e ∈ new, e.still f = true) (log : List Trace) :
    broker (log ++ new) f = broker log f :=
  append_induct (·.still f = true) (fun l => broker l f) (fun log e he => by
    rw [broker_one]
    cases e with
    | finished a g ok => cases a <;> simp_all [Trace.still]
    | _ => simp_all [Trace.still]) h log

theorem kindOf_still {new : List Trace} {f : Bytes} (h : ∀ e ∈ new, e.still f = true) (log : List Trace) :
    kindOf (log ++ new) f = kindOf log f :=
  append_induct (·.still f = true) (fun l => kindOf l f) (fun log e he => by
    rw [kindOf_one]
    cases e <;> simp_all [Trace.still]) h log

/-- What the record of a filter, if any, has to do with the log. -/
structure PInv (f : Bytes) (o : Option Record) (log : List Trace) : Prop where
  sub : outstanding log .subscribe f = if o.any (·.pending == .subscribing) then 1 else 0
  unsub : outstanding log .unsubscribe f = if o.any (·.pending == .unsubscribing) then 1 else 0
  idle : ∀ r, o = some r → r.pending = .subscribing → r.subscribed = false
  unused : ∀ r, o = some r → r.pending = .unsubscribing → r.listeners = []
  server : broker log f = true → ∃ r, o = some r ∧ r.subscribed = true
  needed : ∀ i, needs log i f = true → ∃ r, o = some r ∧ i ∈ r.listeners
  kind : ∀ r, o = some r → kindOf log f = some r.kind
  safe : ∀ a b, log = a ++ .issued .unsubscribe f :: b → ∀ i, needs a i f = false

theorem split_append {log new a b : List Trace} {x : Trace} (h : log ++ new = a ++ x :: b) :
    (∃ b', log = a ++ x :: b') ∨ ∃ c d, a = log ++ c ∧ new = c ++ x :: d := by
  rw [List.append_eq_append_iff] at h
  rcases h with ⟨c, h1, h2⟩ | ⟨c, h1, h2⟩
  · exact .inr ⟨c, b, h1, h2⟩
  · cases c with
    | nil => simp at h2 h1; exact .inr ⟨[], b, by simp [h1], by simp [h2]⟩
    | cons y c =>
      simp only [List.cons_append, List.cons.injEq] at h2
      obtain ⟨rfl, _⟩ := h2
      exact .inl ⟨c, h1⟩

theorem PInv.still {f : Bytes} {o : Option Record} {log new : List Trace} (h : PInv f o log)
    (hn : ∀ e ∈ new, e.still f = true) : PInv f o (log ++ new) where
  sub := by rw [outstanding_still hn]; exact h.sub
  unsub := by rw [outstanding_still hn]; exact h.unsub
  idle := h.idle
  unused := h.unused
  server := by rw [broker_still hn]; exact h.server
  needed := by intro i; rw [needs_still hn]; exact h.needed i
  kind := by rw [kindOf_still hn]; exact h.kind
  safe := by
    intro a b hab
    rcases split_append hab with ⟨b', h1⟩ | ⟨c, d, _, h1⟩
    · exact h.safe a b' h1
    · have := hn (.issued .unsubscribe f) (by rw [h1]; simp)
      simp [Trace.still] at this

/-- Only the poison mark changes. -/
theorem PInv.poison {f : Bytes} {r : Record} {log : List Trace} (h : PInv f (some r) log) :
    PInv f (some { r with poisoned := true }) log where
  sub := h.sub
  unsub := h.unsub
  idle := by intro r' e; cases e; exact h.idle r rfl
  unused := by intro r' e; cases e; exact h.unused r rfl
  server := by intro hb; obtain ⟨r', e, h1⟩ := h.server hb; cases e; exact ⟨_, rfl, h1⟩
  needed := by intro i hi; obtain ⟨r', e, h1⟩ := h.needed i hi; cases e; exact ⟨_, rfl, h1⟩
  kind := by intro r' e; cases e; exact h.kind r rfl
  safe := h.safe

theorem PInv.subscribing {f : Bytes} {r : Record} {log : List Trace} (h : PInv f (some r) log)
    (hp : r.pending = .nothing) (hs : r.subscribed = false) :
    PInv f (some { r with pending := .subscribing }) (log ++ [.issued .subscribe f]) where
  sub := by
    have := h.sub
    rw [outstanding_one, this]; simp [Trace.change, hp]
  unsub := by
    have := h.unsub
    rw [outstanding_one, this]; simp [Trace.change, hp]
  idle := by intro r' e; cases e; exact fun _ => hs
  unused := by intro r' e; cases e; simp
  server := by
    rw [broker_one]
    intro hb; obtain ⟨r', e, h1⟩ := h.server hb; cases e; exact ⟨_, rfl, h1⟩
  needed := by
    intro i; rw [needs_one]
    intro hi; obtain ⟨r', e, h1⟩ := h.needed i hi; cases e; exact ⟨_, rfl, h1⟩
  kind := by intro r' e; cases e; rw [kindOf_one]; exact h.kind r rfl
  safe := by
    intro a b hab
    rcases split_append hab with ⟨b', h1⟩ | ⟨c, d, _, h1⟩
    · exact h.safe a b' h1
    · have : Trace.issued .unsubscribe f ∈ [Trace.issued .subscribe f] := by rw [h1]; simp
      simp at this

theorem PInv.gone {f : Bytes} {r : Record} {log : List Trace} (h : PInv f (some r) log) (hp : r.pending = .nothing)
    (hs : r.subscribed = false) (hl : r.listeners = []) : PInv f none log where
  sub := by have := h.sub; rw [this]; simp [hp]
  unsub := by have := h.unsub; rw [this]; simp [hp]
  idle := by intro r e; cases e
  unused := by intro r e; cases e
  server := by
    intro hb; obtain ⟨r', e, h1⟩ := h.server hb; cases e; rw [hs] at h1; cases h1
  needed := by
    intro i hi; obtain ⟨r', e, h1⟩ := h.needed i hi; cases e; rw [hl] at h1; cases h1
  kind := by intro r e; cases e
  safe := h.safe

theorem PInv.unsubscribing {f : Bytes} {r : Record} {log : List Trace} (h : PInv f (some r) log)
    (hs : r.subscribed = true) (hp : r.pending ≠ .unsubscribing) (hl : r.listeners = []) :
    PInv f (some { r with pending := .unsubscribing }) (log ++ [.issued .unsubscribe f]) := by
  have hq : r.pending = .nothing := by
    cases hx : r.pending with
    | nothing => rfl
    | subscribing => have := h.idle r rfl hx; rw [hs] at this; cases this
    | unsubscribing => exact absurd hx hp
  have no : ∀ i, needs log i f = false := by
    intro i
    cases hi : needs log i f with
    | false => rfl
    | true => obtain ⟨r', e, h1⟩ := h.needed i hi; cases e; rw [hl] at h1; cases h1
  refine ⟨?_, ?_, ?_, ?_, ?_, ?_, ?_, ?_⟩
  · rw [outstanding_one, h.sub]; simp [Trace.change, hq]
  · rw [outstanding_one, h.unsub]; simp [Trace.change, hq]
  · intro r' e; cases e; simp
  · intro r' e; cases e; exact fun _ => hl
  · rw [broker_one]
    intro hb; obtain ⟨r', e, h1⟩ := h.server hb; cases e; exact ⟨_, rfl, h1⟩
  · intro i; rw [needs_one]
    intro hi
    simp only at hi
    rw [no i] at hi; cases hi
  · intro r' e; cases e; rw [kindOf_one]; exact h.kind r rfl
  · intro a b hab
    rcases split_append hab with ⟨b', h1⟩ | ⟨c, d, h1, h2⟩
    · exact h.safe a b' h1
    · cases c with
      | nil => rw [h1]; simpa using no
      | cons y c => simp at h2

/-- A completion of the subscribe. -/
theorem PInv.subscribed {f : Bytes} {r : Record} {log : List Trace} (h : PInv f (some r) log)
    (hp : r.pending = .subscribing) (ok : Bool) :
    PInv f (some { r with pending := .nothing, subscribed := ok }) (log ++ [.finished .subscribe f ok]) where
  sub := by rw [outstanding_one, h.sub]; simp [Trace.change, hp]
  unsub := by rw [outstanding_one, h.unsub]; simp [Trace.change, hp]
  idle := by intro r' e; cases e; simp
  unused := by intro r' e; cases e; simp
  server := by
    rw [broker_one]
    cases ok with
    | true => intro _; exact ⟨_, rfl, rfl⟩
    | false =>
      simp only [if_pos, Bool.false_or]
      intro hb; obtain ⟨r', e, h1⟩ := h.server hb; cases e
      rw [h.idle r rfl hp] at h1; cases h1
  needed := by
    intro i; rw [needs_one]
    intro hi; obtain ⟨r', e, h1⟩ := h.needed i hi; cases e; exact ⟨_, rfl, h1⟩
  kind := by intro r' e; cases e; rw [kindOf_one]; exact h.kind r rfl
  safe := by
    intro a b hab
    rcases split_append hab with ⟨b', h1⟩ | ⟨c, d, _, h1⟩
    · exact h.safe a b' h1
    · have : Trace.issued .unsubscribe f ∈ [Trace.finished .subscribe f ok] := by rw [h1]; simp
      simp at this

/-- A completion of the unsubscribe. -/
theorem PInv.unsubscribed {f : Bytes} {r : Record} {log : List Trace} (h : PInv f (some r) log)
    (hp : r.pending = .unsubscribing) (ok : Bool) :
    PInv f (some { r with pending := .nothing, subscribed := !ok && r.subscribed })
      (log ++ [.finished .unsubscribe f ok]) where
  sub := by rw [outstanding_one, h.sub]; simp [Trace.change, hp]
  unsub := by rw [outstanding_one, h.unsub]; simp [Trace.change, hp]
  idle := by intro r' e; cases e; simp
  unused := by intro r' e; cases e; simp
  server := by
    rw [broker_one]
    cases ok with
    | true => simp
    | false =>
      simp only [if_pos, Bool.not_false, Bool.true_and]
      intro hb; obtain ⟨r', e, h1⟩ := h.server hb; cases e
      exact ⟨_, rfl, h1⟩
  needed := by
    intro i; rw [needs_one]
    intro hi; obtain ⟨r', e, h1⟩ := h.needed i hi; cases e; exact ⟨_, rfl, h1⟩
  kind := by intro r' e; cases e; rw [kindOf_one]; exact h.kind r rfl
  safe := by
    intro a b hab
    rcases split_append hab with ⟨b', h1⟩ | ⟨c, d, _, h1⟩
    · exact h.safe a b' h1
    · have : Trace.issued .unsubscribe f ∈ [Trace.finished .unsubscribe f ok] := by rw [h1]; simp
      simp at this

/-- A new listener. -/
theorem PInv.listen {f : Bytes} {o : Option Record} {log : List Trace} {kind : Kind} (h : PInv f o log) (op : Nat)
    (hp : o.any (·.pending == .unsubscribing) = false) (hk : ∀ r, o = some r → r.kind = kind) :
    PInv f (some (addListener (o.getD { kind := kind }) op)) (log ++ [.acquired op f kind]) := by
  have hpend : (addListener (o.getD { kind := kind }) op).pending = (o.getD { kind := kind }).pending := rfl
  refine ⟨?_, ?_, ?_, ?_, ?_, ?_, ?_, ?_⟩
  · rw [outstanding_one, h.sub]
    cases o <;> simp [Trace.change, addListener]
  · rw [outstanding_one, h.unsub]
    cases o <;> simp [Trace.change, addListener]
  · intro r' e hr
    cases e
    cases o with
    | none => rfl
    | some r => exact h.idle r rfl hr
  · intro r' e hr
    cases e
    cases o with
    | none => cases hr
    | some r =>
      have hr' : r.pending = .unsubscribing := hr
      simp [hr'] at hp
  · rw [broker_one]
    intro hb; obtain ⟨r', e, h1⟩ := h.server hb; cases e; exact ⟨_, rfl, h1⟩
  · intro i
    rw [needs_one]
    by_cases hi : op = i
    · intro _
      refine ⟨_, rfl, ?_⟩
      subst hi
      simp only [addListener]
      split
      · assumption
      · simp
    · simp only [hi, false_and, if_false]
      intro hi; obtain ⟨r', e, h1⟩ := h.needed i hi; cases e
      refine ⟨_, rfl, ?_⟩
      simp only [addListener, Option.getD_some]
      split
      · exact h1
      · simp [h1]
  · intro r' e
    cases e
    rw [kindOf_one]
    simp only [if_pos]
    cases o with
    | none => rfl
    | some r => simp [addListener, hk r rfl]
  · intro a b hab
    rcases split_append hab with ⟨b', h1⟩ | ⟨c, d, _, h1⟩
    · exact h.safe a b' h1
    · have : Trace.issued .unsubscribe f ∈ [Trace.acquired op f kind] := by rw [h1]; simp
      simp at this

/-- A listener less. -/
theorem PInv.release {f : Bytes} {r : Record} {log : List Trace} (h : PInv f (some r) log) (op : Nat) :
    PInv f (some { r with listeners := r.listeners.filter (· != op) }) (log ++ [.released op f]) where
  sub := by rw [outstanding_one, h.sub]; simp [Trace.change]
  unsub := by rw [outstanding_one, h.unsub]; simp [Trace.change]
  idle := by intro r' e; cases e; exact h.idle r rfl
  unused := by intro r' e; cases e; intro hr; simp [h.unused r rfl hr]
  server := by
    rw [broker_one]
    intro hb; obtain ⟨r', e, h1⟩ := h.server hb; cases e; exact ⟨_, rfl, h1⟩
  needed := by
    intro i; rw [needs_one]
    by_cases hi : op = i
    · simp [hi]
    · simp only [hi, false_and, if_false]
      intro hx; obtain ⟨r', e, h1⟩ := h.needed i hx; cases e
      refine ⟨_, rfl, ?_⟩
      simp only [List.mem_filter, bne_iff_ne]
      exact ⟨h1, fun he => hi he.symm⟩
  kind := by intro r' e; cases e; rw [kindOf_one]; exact h.kind r rfl
  safe := by
    intro a b hab
    rcases split_append hab with ⟨b', h1⟩ | ⟨c, d, _, h1⟩
    · exact h.safe a b' h1
    · have : Trace.issued .unsubscribe f ∈ [Trace.released op f] := by rw [h1]; simp
      simp at this

/-- Release of a filter without record. -/
theorem PInv.release_none {f : Bytes} {log : List Trace} (h : PInv f none log) (op : Nat) :
    PInv f none (log ++ [.released op f]) where
  sub := by rw [outstanding_one, h.sub]; simp [Trace.change]
  unsub := by rw [outstanding_one, h.unsub]; simp [Trace.change]
  idle := by intro r' e; cases e
  unused := by intro r' e; cases e
  server := by
    rw [broker_one]
    intro hb; obtain ⟨r', e, h1⟩ := h.server hb; cases e
  needed := by
    intro i; rw [needs_one]
    simp only
    split
    · intro hx; cases hx
    · intro hx; obtain ⟨r', e, h1⟩ := h.needed i hx; cases e
  kind := by intro r' e; cases e
  safe := by
    intro a b hab
    rcases split_append hab with ⟨b', h1⟩ | ⟨c, d, _, h1⟩
    · exact h.safe a b' h1
    · have : Trace.issued .unsubscribe f ∈ [Trace.released op f] := by rw [h1]; simp
      simp at this

/-- A connection without session; the server's subscriptions are gone. -/
theorem PInv.sessionLost {f : Bytes} {o : Option Record} {log : List Trace} (h : PInv f o log) :
    PInv f o (log ++ [.sessionLost]) ∧ broker (log ++ [.sessionLost]) f = false := by
  refine ⟨⟨?_, ?_, h.idle, h.unused, ?_, ?_, ?_, ?_⟩, ?_⟩
  · rw [outstanding_one, h.sub]; simp [Trace.change]
  · rw [outstanding_one, h.unsub]; simp [Trace.change]
  · rw [broker_one]; simp
  · intro i; rw [needs_one]; exact h.needed i
  · intro r e; rw [kindOf_one]; exact h.kind r e
  · intro a b hab
    rcases split_append hab with ⟨b', h1⟩ | ⟨c, d, _, h1⟩
    · exact h.safe a b' h1
    · have : Trace.issued .unsubscribe f ∈ [Trace.sessionLost] := by rw [h1]; simp
      simp at this
  · rw [broker_one]

/-- The record of a filter the server does not have. -/
theorem PInv.notSubscribed {f : Bytes} {r : Record} {log : List Trace} (h : PInv f (some r) log)
    (hb : broker log f = false) : PInv f (some { r with subscribed := false }) log where
  sub := h.sub
  unsub := h.unsub
  idle := by intro r' e; cases e; exact fun _ => rfl
  unused := by intro r' e; cases e; exact h.unused r rfl
  server := by rw [hb]; intro h; cases h
  needed := by intro i hi; obtain ⟨r', e, h1⟩ := h.needed i hi; cases e; exact ⟨_, rfl, h1⟩
  kind := by intro r' e; cases e; exact h.kind r rfl
  safe := h.safe

theorem needs_ended (log : List Trace) (f : Bytes) (l : List Nat) (i : Nat) :
    needs (log ++ l.map fun i => .status ⟨.subscriptionEnded, f, i⟩) i f = (needs log i f && !l.contains i) := by
  induction l generalizing log with
  | nil => simp
  | cons j l ih =>
    rw [List.map_cons, show ∀ (x : Trace) (y : List Trace), log ++ x :: y = (log ++ [x]) ++ y by simp, ih, needs_one]
    simp only [true_and, and_true, List.contains_cons]
    by_cases hj : j = i
    · simp [hj]
    · rw [if_neg hj]
      have : (i == j) = false := by simpa using fun h => hj h.symm
      simp [this]

/-- The listeners are told that the subscription has ended. -/
theorem PInv.ended {f : Bytes} {r : Record} {log : List Trace} (h : PInv f (some r) log) :
    PInv f (some r) (log ++ r.listeners.map fun i => .status ⟨.subscriptionEnded, f, i⟩) ∧
      ∀ i, needs (log ++ r.listeners.map fun i => .status ⟨.subscriptionEnded, f, i⟩) i f = false := by
  have hall : ∀ e ∈ r.listeners.map fun i => Trace.status ⟨.subscriptionEnded, f, i⟩, ∃ s, e = .status s := by
    intro e he
    obtain ⟨i, _, rfl⟩ := List.mem_map.1 he
    exact ⟨_, rfl⟩
  have hz : ∀ x, outstanding (log ++ r.listeners.map fun i => .status ⟨.subscriptionEnded, f, i⟩) x f =
      outstanding log x f := fun x =>
    append_induct (∃ s, · = .status s) (fun l => outstanding l x f)
      (by rintro log e ⟨s, rfl⟩; rw [outstanding_one]; simp [Trace.change]) hall log
  have hb : broker (log ++ r.listeners.map fun i => .status ⟨.subscriptionEnded, f, i⟩) f = broker log f :=
    append_induct (∃ s, · = .status s) (fun l => broker l f) (by rintro log e ⟨s, rfl⟩; rw [broker_one]) hall log
  have hk : kindOf (log ++ r.listeners.map fun i => .status ⟨.subscriptionEnded, f, i⟩) f = kindOf log f :=
    append_induct (∃ s, · = .status s) (fun l => kindOf l f) (by rintro log e ⟨s, rfl⟩; rw [kindOf_one]) hall log
  have no : ∀ i, needs (log ++ r.listeners.map fun i => .status ⟨.subscriptionEnded, f, i⟩) i f = false := by
    intro i
    rw [needs_ended]
    cases hi : needs log i f with
    | false => rfl
    | true =>
      obtain ⟨r', e, h1⟩ := h.needed i hi
      cases e
      simp [h1]
  refine ⟨⟨?_, ?_, h.idle, h.unused, ?_, ?_, ?_, ?_⟩, no⟩
  · rw [hz]; exact h.sub
  · rw [hz]; exact h.unsub
  · rw [hb]; exact h.server
  · intro i hi; rw [no i] at hi; cases hi
  · rw [hk]; exact h.kind
  · intro a b hab
    rcases split_append hab with ⟨b', h1⟩ | ⟨c, d, _, h1⟩
    · exact h.safe a b' h1
    · have : Trace.issued .unsubscribe f ∈ r.listeners.map fun i => Trace.status ⟨.subscriptionEnded, f, i⟩ := by
        rw [h1]; simp
      simp at this

/-! ## One record -/

/-- The entry is about a filter. -/
def Trace.about (f : Bytes) : Trace → Bool
  | .issued _ g | .finished _ g _ | .acquired _ g _ | .released _ g => g == f
  | .status s => s.filter == f
  | .sessionLost | .closed => false

theorem about_still {e : Trace} {f g : Bytes} (h : e.about f = true) (hne : g ≠ f) : e.still g = true := by
  cases e <;> simp_all [Trace.about, Trace.still] <;> first | exact fun h => hne h.symm | exact .inr fun h => hne h.symm

/-- Only entries about the filter are added. -/
def About (f : Bytes) (log log' : List Trace) : Prop := ∃ new, log' = log ++ new ∧ ∀ e ∈ new, e.about f = true

theorem About.refl {f : Bytes} {log : List Trace} : About f log log := ⟨[], by simp, by simp⟩

theorem About.one {f : Bytes} {log : List Trace} {e : Trace} (h : e.about f = true) : About f log (log ++ [e]) :=
  ⟨[e], rfl, by simpa using h⟩

theorem About.trans {f : Bytes} {a b c : List Trace} (h1 : About f a b) (h2 : About f b c) : About f a c := by
  obtain ⟨x, rfl, hx⟩ := h1
  obtain ⟨y, rfl, hy⟩ := h2
  refine ⟨x ++ y, by simp, ?_⟩
  intro e he
  rcases List.mem_append.1 he with he | he
  · exact hx e he
  · exact hy e he

/-- What becomes of a record: the invariant holds, only this filter is concerned, and the kind stays. -/
structure Good (f : Bytes) (r : Record) (log : List Trace) (o : Option Record) (log' : List Trace) : Prop where
  inv : PInv f o log'
  about : About f log log'
  kind : ∀ r', o = some r' → r'.kind = r.kind

theorem unsubscribe_good {f : Bytes} {r : Record} {log : List Trace} (env : Env) (h : PInv f (some r) log)
    (hl : r.listeners = []) :
    Good f r log (some (unsubscribe env f r false log).1) (unsubscribe env f r false log).2 ∧
      (unsubscribe env f r false log).1.listeners = [] := by
  unfold unsubscribe
  simp only [Bool.false_and, Bool.or_false, Bool.and_eq_true, bne_iff_ne]
  split
  · rename_i hx
    split
    · exact ⟨⟨h.unsubscribing hx.1 hx.2 hl, .one (by simp [Trace.about]), by intro r' e; cases e; rfl⟩, hl⟩
    · exact ⟨⟨h, .refl, by intro r' e; cases e; rfl⟩, hl⟩
  · exact ⟨⟨h, .refl, by intro r' e; cases e; rfl⟩, hl⟩

theorem emit_good {f : Bytes} {r : Record} {log : List Trace} {t : StatusType} (h : PInv f (some r) log)
    (hm : matchesType r.kind t = true) (ht : t ≠ .subscriptionEnded) :
    ∃ log', emit f r t log = .ok log' ∧ Good f r log (some r) log' := by
  refine ⟨_, if_pos hm, h.still ?_, ⟨_, rfl, ?_⟩, by intro r' e; cases e; rfl⟩
  · intro e he
    obtain ⟨i, _, rfl⟩ := List.mem_map.1 he
    simp [Trace.still, ht]
  · intro e he
    obtain ⟨i, _, rfl⟩ := List.mem_map.1 he
    simp [Trace.about]

theorem activate_good {f : Bytes} {r : Record} {log : List Trace} (connected : Bool) (env : Env)
    (h : PInv f (some r) log) :
    ∃ ok r' log', activate connected env f r log = .ok (ok, r', log') ∧ Good f r log (some r') log' := by
  unfold activate
  split
  · exact ⟨_, _, _, rfl, h, .refl, by intro r' e; cases e; rfl⟩
  · split
    · rename_i hx
      simp only [Bool.and_eq_true, Bool.not_eq_eq_eq_not, Bool.not_true, beq_iff_eq] at hx
      split
      · exact ⟨_, _, _, rfl, h.subscribing hx.2 hx.1.2, .one (by simp [Trace.about]), by intro r' e; cases e; rfl⟩
      · cases hk : r.kind with
        | request =>
          obtain ⟨log', h1, h2⟩ := emit_good (t := .subscribeFailure) h (by simp [matchesType, hk]) (by simp)
          simp only [h1]
          exact ⟨_, _, _, rfl, h2⟩
        | stream =>
          obtain ⟨log', h1, h2⟩ := emit_good (t := .halted) h.poison (by simp [matchesType, hk]) (by simp)
          simp only [hk] at h1
          simp only [h1]
          exact ⟨_, _, _, rfl, by simpa [hk] using h2.inv, h2.about, by intro r' e; cases e; exact hk.symm⟩
    · exact ⟨_, _, _, rfl, h, .refl, by intro r' e; cases e; rfl⟩

theorem purge_good {f : Bytes} {r : Record} {log : List Trace} (connected : Bool) (env : Env)
    (h : PInv f (some r) log) :
    ∃ o log', purgeOne connected env f r log = .ok (o, log') ∧ Good f r log o log' := by
  unfold purgeOne
  split
  · rename_i hl
    simp only [List.isEmpty_iff] at hl
    have key : ∀ x : Record × List Trace, Good f r log (some x.1) x.2 → x.1.listeners = [] →
        ∃ o log', (if (!x.1.subscribed && x.1.pending == .nothing) = true then
          (.ok (none, x.2) : Except Fault (Option Record × List Trace)) else .ok (some x.1, x.2)) = .ok (o, log') ∧
          Good f r log o log' := by
      intro x hx hxl
      split
      · rename_i hc
        simp only [Bool.and_eq_true, Bool.not_eq_eq_eq_not, Bool.not_true, beq_iff_eq] at hc
        exact ⟨_, _, rfl, hx.inv.gone hc.2 hc.1 hxl, hx.about, by intro r' e; cases e⟩
      · exact ⟨_, _, rfl, hx⟩
    cases connected with
    | true => exact key _ (unsubscribe_good env h hl).1 (unsubscribe_good env h hl).2
    | false => exact key (r, log) ⟨h, .refl, by intro r' e; cases e; rfl⟩ hl
  · exact ⟨_, _, rfl, h, .refl, by intro r' e; cases e; rfl⟩

theorem resubscribe_good {f : Bytes} {r : Record} {log : List Trace} (connected : Bool) (env : Env)
    (h : PInv f (some r) log) :
    ∃ o log', resubscribeOne connected env f r log = .ok (o, log') ∧ Good f r log o log' := by
  unfold resubscribeOne
  split
  · obtain ⟨ok, r', log', h1, h2⟩ := activate_good connected env h
    rw [h1]
    exact ⟨_, _, rfl, h2⟩
  · exact ⟨_, _, rfl, h, .refl, by intro r' e; cases e; rfl⟩

theorem activateOne_good {f : Bytes} {r : Record} {log : List Trace} (connected : Bool) (env : Env)
    (h : PInv f (some r) log) :
    ∃ o log', activateOne connected env f r log = .ok (o, log') ∧ Good f r log o log' := by
  unfold activateOne
  obtain ⟨ok, r', log', h1, h2⟩ := activate_good connected env h
  rw [h1]
  exact ⟨_, _, rfl, h2⟩

/-- The server does not have the subscription any more. -/
theorem lost_good {f : Bytes} {r : Record} {log : List Trace} (h : PInv f (some r) log) (hb : broker log f = false) :
    ∃ o log', lostOne f r log = .ok (o, log') ∧ Good f r log o log' ∧ broker log' f = false := by
  unfold lostOne
  split
  · rename_i hs
    have hp : r.pending ≠ .subscribing := fun hp => by
      have := h.idle r rfl hp
      rw [hs] at this; cases this
    cases hk : r.kind with
    | request =>
      have he := h.notSubscribed hb
      have h1 : emit f { r with subscribed := false } .subscriptionEnded log =
          .ok (log ++ r.listeners.map fun i => .status ⟨.subscriptionEnded, f, i⟩) := by
        simp [emit, matchesType, hk]
      rw [hk] at h1
      simp only [h1]
      have hd := he.ended
      have hab : About f log (log ++ r.listeners.map fun i => .status ⟨.subscriptionEnded, f, i⟩) := by
        refine ⟨_, rfl, ?_⟩
        intro e he
        obtain ⟨i, _, rfl⟩ := List.mem_map.1 he
        simp [Trace.about]
      have hb' : broker (log ++ r.listeners.map fun i => .status ⟨.subscriptionEnded, f, i⟩) f = false := by
        cases hx : broker (log ++ r.listeners.map fun i => .status ⟨.subscriptionEnded, f, i⟩) f with
        | false => rfl
        | true => obtain ⟨r', e, h2⟩ := hd.1.server hx; cases e; cases h2
      split
      · rename_i hq
        have hq : r.pending = .nothing := by
          cases hx : r.pending with
          | nothing => rfl
          | subscribing => exact absurd hx hp
          | unsubscribing => rw [hx] at hq; simp at hq
        refine ⟨_, _, rfl, ⟨⟨?_, ?_, ?_, ?_, ?_, ?_, ?_, hd.1.safe⟩, hab, by intro r' e; cases e⟩, hb'⟩
        · rw [hd.1.sub]; simp [hq]
        · rw [hd.1.unsub]; simp [hq]
        · intro r' e; cases e
        · intro r' e; cases e
        · rw [hb']; intro h; cases h
        · intro i hi; rw [hd.2 i] at hi; cases hi
        · intro r' e; cases e
      · refine ⟨_, _, rfl, ⟨?_, hab, by intro r' e; cases e; exact hk.symm⟩, hb'⟩
        have := hd.1
        rw [hk] at this
        exact this
    | stream =>
      obtain ⟨log', h1, h2⟩ := emit_good (t := .lost) (h.notSubscribed hb) (by simp [matchesType, hk]) (by simp)
      rw [hk] at h1
      simp only [h1]
      refine ⟨_, _, rfl, ⟨?_, h2.about, by intro r' e; cases e; exact hk.symm⟩, ?_⟩
      · have := h2.inv
        rw [hk] at this
        exact this
      · cases hx : broker log' f with
        | false => rfl
        | true => obtain ⟨r', e, h3⟩ := h2.inv.server hx; cases e; cases h3
  · exact ⟨_, _, rfl, ⟨h, .refl, by intro r' e; cases e; rfl⟩, hb⟩

/-- The pending state that awaits a completion. -/
def Action.awaits : Action → Pending
  | .subscribe => .subscribing
  | .unsubscribe => .unsubscribing

theorem request_good {f : Bytes} {r : Record} {log : List Trace} (a : Action) (ok : Bool) (h : PInv f (some r) log)
    (hp : r.pending = a.awaits) (hk : r.kind = .request) :
    ∃ r' log', requestEvent f r a ok (log ++ [.finished a f ok]) = .ok (r', log') ∧ Good f r log (some r') log' := by
  have one : About f log (log ++ [.finished a f ok]) := .one (by simp [Trace.about])
  cases a with
  | subscribe =>
    have hs := h.idle r rfl hp
    have h1 := h.subscribed hp ok
    have e1 : ({ r with pending := .nothing, subscribed := ok } : Record) =
        if ok = true then { { r with pending := .nothing } with subscribed := true } else { r with pending := .nothing } := by
      cases ok <;> simp [hs]
    obtain ⟨log', h2, h3⟩ := emit_good (t := if ok = true then .subscribeSuccess else .subscribeFailure) h1
      (by cases ok <;> simp [matchesType, hk]) (by cases ok <;> simp)
    simp only [requestEvent]
    rw [if_pos (by simp [hp, Action.awaits])]
    rw [e1] at h2 h3
    simp only [h2]
    exact ⟨_, _, rfl, h3.inv, one.trans h3.about, by intro r' e; cases e; cases ok <;> rfl⟩
  | unsubscribe =>
    have h1 := h.unsubscribed hp ok
    simp only [requestEvent]
    rw [if_pos (by simp [hp, Action.awaits])]
    cases ok with
    | true =>
      exact ⟨_, _, rfl, h1.still (by simp [Trace.still]), one.trans (.one (by simp [Trace.about])),
        by intro r' e; cases e; rfl⟩
    | false => exact ⟨_, _, rfl, h1, one, by intro r' e; cases e; rfl⟩

theorem stream_good {f : Bytes} {r : Record} {log : List Trace} (connected : Bool) (env : Env) (a : Action)
    (ok retryable : Bool) (h : PInv f (some r) log) (hp : r.pending = a.awaits) (hk : r.kind = .stream) :
    ∃ r' log', streamEvent connected env f r a ok retryable (log ++ [.finished a f ok]) = .ok (r', log') ∧
      Good f r log (some r') log' := by
  have one : About f log (log ++ [.finished a f ok]) := .one (by simp [Trace.about])
  cases a with
  | subscribe =>
    have hs := h.idle r rfl hp
    have h1 := h.subscribed hp ok
    simp only [streamEvent]
    rw [if_pos (by simp [hp, Action.awaits])]
    cases ok with
    | true =>
      obtain ⟨log', h2, h3⟩ := emit_good (t := .established) h1 (by simp [matchesType, hk]) (by simp)
      simp only [if_pos, h2]
      exact ⟨_, _, rfl, h3.inv, one.trans h3.about, by intro r' e; cases e; rfl⟩
    | false =>
      rw [show ({ r with pending := .nothing, subscribed := false } : Record) = { r with pending := .nothing } by
        rw [← hs]] at h1
      rw [if_neg (by simp)]
      cases retryable with
      | true =>
        obtain ⟨ok', r', log', h2, h3⟩ := activate_good connected env h1
        simp only [if_pos, h2]
        exact ⟨_, _, rfl, h3.inv, one.trans h3.about, h3.kind⟩
      | false =>
        obtain ⟨log', h2, h3⟩ := emit_good (t := .halted) h1.poison (by simp [matchesType, hk]) (by simp)
        rw [if_neg (by simp)]
        simp only [h2]
        exact ⟨_, _, rfl, h3.inv, one.trans h3.about, by intro r' e; cases e; rfl⟩
  | unsubscribe =>
    have h1 := h.unsubscribed hp ok
    simp only [streamEvent]
    rw [if_pos (by simp [hp, Action.awaits])]
    cases ok with
    | true =>
      exact ⟨_, _, rfl, h1.still (by simp [Trace.still]), one.trans (.one (by simp [Trace.about])),
        by intro r' e; cases e; rfl⟩
    | false => exact ⟨_, _, rfl, h1, one, by intro r' e; cases e; rfl⟩

end Mqtt.Rr
