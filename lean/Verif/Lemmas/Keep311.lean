import Verif.Lemmas.Progress311Run

/-!
A 3.1.1 connection whose sessions are all persistent cancels nothing.
-/
namespace Mqtt.Client311

variable {old : List Trace}

/-- No request is being cancelled, and none has been that is not in `old`. -/
structure Spares (old : List Trace) (c : Conn) : Prop where
  clean : c.clean = false
  busy : ∀ all todo n, c.busy = .cancelling all todo n → todo = []
  log : ∀ uid, .completed uid .cleanSession ∈ c.log → .completed uid .cleanSession ∈ old

theorem Spares.of {c d : Conn} (h : Spares old c) (hc : d.clean = c.clean) (hb : d.busy = c.busy) {new : List Trace}
    (hl : d.log = c.log ++ new) (hn : ∀ uid, .completed uid .cleanSession ∉ new) : Spares old d :=
  ⟨hc.trans h.clean, by rw [hb]; exact h.busy, fun uid hx => by
    rw [hl] at hx
    rcases List.mem_append.1 hx with hx | hx
    · exact h.log uid hx
    · exact absurd hx (hn uid)⟩

theorem Spares.same {c d : Conn} (h : Spares old c) (hc : d.clean = c.clean) (hb : d.busy = c.busy) (hl : d.log = c.log) :
    Spares old d := h.of hc hb (hl.trans (List.append_nil _).symm) (by simp)

theorem Spares.tell {c : Conn} (h : Spares old c) {t : Trace} (ht : ∀ uid, t ≠ .completed uid .cleanSession) : Spares old (c.tell t) :=
  h.of rfl rfl rfl fun uid hx => ht uid (List.mem_singleton.1 hx).symm

theorem Spares.change {c : Conn} (h : Spares old c) (uid : Nat) (a b : Bool) : Spares old (c.change uid a b) := by
  unfold Conn.change
  split
  · exact h
  · split
    · exact h
    · exact h.same rfl rfl rfl

theorem Spares.remove {c : Conn} (h : Spares old c) (uid : Nat) : Spares old (c.remove uid) := by
  unfold Conn.remove
  split
  · exact h
  · exact h.same rfl rfl rfl

theorem Spares.removeAll {c : Conn} (h : Spares old c) (l : List Nat) : Spares old (l.foldl Conn.remove c) := by
  induction l generalizing c with
  | nil => exact h
  | cons u l ih => exact ih (h.remove u)

theorem Spares.complete {c : Conn} (h : Spares old c) (uid : Nat) {o : Outcome} (ho : o ≠ .cleanSession) :
    Spares old (c.complete uid o) :=
  ((h.tell fun u hx => ho (by injection hx)).change _ _ _).remove _

theorem Spares.add {c : Conn} (h : Spares old c) (kind : Kind) (id size : Nat) : Spares old (c.add kind id size) := by
  unfold Conn.add
  refine Spares.change ?_ _ _ _
  exact h.of rfl rfl (new := [_]) rfl (by simp)

theorem Spares.create {c d : Conn} (h : Spares old c) {kind : Kind} {size : Nat} (hs : c.create kind size = .ok d) : Spares old d := by
  unfold Conn.create at hs
  split at hs
  · cases hs; exact h.tell nofun
  · split at hs
    · cases hs; exact h.tell nofun
    · simp only at hs
      split at hs
      · cases hs; exact h.of rfl rfl (new := [_]) rfl (by simp)
      · split at hs
        · cases hs; exact (h.add kind _ size).same rfl rfl rfl
        · split at hs
          · cases hs; exact (h.add kind _ size).same rfl rfl rfl
          · cases hs

theorem Spares.finish {c d : Conn} (h : Spares old c) {id : Nat} {o : Outcome} (ho : o ≠ .cleanSession)
    (hs : c.finish id o = .ok d) : Spares old d := by
  unfold Conn.finish at hs
  split at hs
  · cases hs; exact h
  · split at hs
    · cases hs; exact (h.complete _ ho).same rfl rfl rfl
    · cases hs

theorem Spares.send {c : Conn} (h : Spares old c) (uid chan : Nat) (r : Sending) : Spares old (c.send uid chan r) := by
  unfold Conn.send
  split
  · exact h
  · split
    · exact h.complete _ nofun
    · simp only
      split
      · exact h.complete _ nofun
      · exact (h.tell (t := .sent uid chan _) nofun).complete _ nofun
    · refine Spares.same (Spares.change ?_ uid true true) rfl rfl rfl
      exact (h.tell (t := .sent uid chan _) nofun).same rfl rfl rfl

theorem Spares.cancelled {c : Conn} (h : Spares old c) (uid : Nat) : Spares old (c.cancelled uid) := by
  unfold Conn.cancelled
  split
  · exact h
  · split
    · exact (h.change uid true false).same rfl rfl rfl
    · exact h.complete _ nofun

theorem Spares.reject {c : Conn} (h : Spares old c) (chan : Nat) : Spares old (c.reject chan) :=
  h.of rfl rfl (new := [_]) rfl (by simp)

theorem Spares.connack {c : Conn} (h : Spares old c) (chan : Nat) (a : Bool) : Spares old (c.connack chan a) := by
  unfold Conn.connack
  split
  · exact h.tell nofun
  · split
    · simp only
      split
      · exact h.of rfl rfl (new := [_] ++ [_]) (List.append_assoc ..) (by simp)
      · exact h.of rfl rfl (new := [_] ++ [_]) (List.append_assoc ..) (by simp)
    · exact h.of rfl rfl (new := [_, _]) rfl (by simp)

theorem Spares.suback {c d : Conn} (h : Spares old c) {chan id codes : Nat} (hs : c.suback chan id codes = .ok d) : Spares old d := by
  unfold Conn.suback at hs
  split at hs
  · cases hs; exact h
  · split at hs
    · cases hs
    · split at hs
      · cases hs
      · split at hs
        · cases hs; exact h.reject chan
        · exact Spares.finish (o := .success) h nofun hs

theorem Spares.receive {c d : Conn} (h : Spares old c) {chan : Nat} {p : Packet} (hs : c.receive chan p = .ok d) : Spares old d := by
  have ht : ∀ q, Spares old (c.tell (.processed chan q)) := fun q => h.tell nofun
  unfold Conn.receive at hs
  split at hs
  · cases hs; exact ht _
  · cases hs; exact h.connack ..
  · split at hs
    · cases hs; exact h.reject chan
    · split at hs
      · cases hs
        split
        · exact (ht _).tell nofun
        · exact ht _
      · exact Spares.finish (o := .success) (ht _) nofun hs
      · exact Spares.finish (o := .success) (ht _) nofun hs
      · exact Spares.finish (o := .success) (ht _) nofun hs
      · exact (ht _).suback hs
      · cases hs; exact (ht _).tell nofun
      · cases hs; exact (ht _).tell nofun
      · cases hs; exact h.reject chan

theorem Spares.release {c d : Conn} (h : Spares old c) (hs : c.release = .ok d) : Spares old d := by
  unfold Conn.release at hs
  split at hs
  · split at hs
    · cases hs
      exact h.of rfl rfl (new := _ ++ _) (List.append_assoc ..) (by simp)
    · cases hs
  · cases hs; exact h

theorem Spares.idle {c : Conn} (h : Spares old c) {b : Busy} (hb : ∀ all todo n, b = .cancelling all todo n → todo = []) :
    Spares old { c with busy := b } := ⟨h.clean, hb, h.log⟩

theorem Spares.finishDisconnect {c d : Conn} (h : Spares old c) {prev : State} (hs : c.finishDisconnect prev = .ok d) :
    Spares old d := by
  unfold Conn.finishDisconnect at hs
  refine Spares.release ?_ hs
  refine (h.idle (b := .idle) nofun).of rfl rfl rfl ?_
  intro uid
  cases prev <;> simp

theorem Spares.shutdown {c : Conn} (h : Spares old c) : Spares old c.shutdown := by
  refine ⟨h.clean, ?_, h.log⟩
  intro all todo n hb
  simp only [Conn.shutdown, h.clean] at hb
  cases hb
  rfl

theorem Spares.schedule {c d : Conn} (h : Spares old c) (hs : c.schedule = .ok d) : Spares old d := by
  unfold Conn.schedule at hs
  split at hs
  · cases hs
  · cases hs; exact h.same rfl rfl rfl

theorem Spares.advance {c d : Conn} (h : Spares old c) (hs : c.advance = .ok d) : Spares old d := by
  unfold Conn.advance at hs
  split at hs
  · rename_i hb
    cases h.busy _ _ _ hb
  · rename_i all next _
    have hr := h.removeAll all
    simp only at hs
    split at hs
    · cases hs; exact hr.idle nofun
    · exact (hr.idle (b := .idle) nofun).schedule hs
    · cases hs; exact (hr.idle (b := .interrupted) nofun).of rfl rfl (new := [_]) rfl (by simp)
    · cases hs; exact hr.idle nofun
    · exact hr.finishDisconnect hs
  · split at hs
    · exact h.finishDisconnect hs
    · exact (h.idle (b := .idle) nofun).schedule hs
  · cases hs; exact h

theorem spares_step {c d : Conn} {e : Event} (h : Spares old c) (he : e ≠ .connect true) (hs : step c e = .ok d) : Spares old d := by
  cases e with
  | create kind size => exact h.create hs
  | connect clean =>
    cases clean with
    | true => exact absurd rfl he
    | false =>
      cases hs
      unfold Conn.connect
      split
      · exact h.tell nofun
      · exact ⟨rfl, fun _ _ _ hb => by cases hb; rfl, h.log⟩
  | launch ok =>
    cases hs
    unfold Conn.launch
    split
    · exact (h.idle (b := .idle) nofun).of rfl rfl (new := [_]) rfl (by simp)
    · exact (h.idle (b := .idle) nofun).of rfl rfl (new := [_]) rfl (by simp)
  | advance => exact h.advance hs
  | disconnect =>
    cases hs
    unfold Conn.disconnect
    split
    · exact h.same rfl rfl rfl
    · exact h
  | acquire => cases hs; exact h.same rfl rfl rfl
  | release => exact (h.same (d := { c with held := c.held - 1 }) rfl rfl rfl).release hs
  | setup r =>
    cases hs
    unfold Conn.setup
    split
    · exact h.shutdown
    · exact h.same rfl rfl rfl
    · simp only
      split
      · exact h.same rfl rfl rfl
      · split
        · exact h.of rfl rfl (new := [_]) rfl (by simp)
        · exact h.of rfl rfl (new := [_]) rfl (by simp)
  | packet p =>
    simp only [step] at hs
    split at hs
    · cases hs
    · exact h.receive hs
  | ping => exact h.create hs
  | run k r =>
    simp only [step] at hs
    split at hs
    · cases hs; exact h
    · cases hs; exact (h.same (d := { c with tasks := c.tasks.eraseIdx k }) rfl rfl rfl).send ..
  | cancel k =>
    simp only [step] at hs
    split at hs
    · cases hs; exact h
    · cases hs; exact (h.same (d := { c with tasks := c.tasks.eraseIdx k }) rfl rfl rfl).cancelled ..
  | timeout uid =>
    simp only [step] at hs
    split at hs
    · cases hs
    · exact Spares.finish (o := .timeout) h nofun hs
  | attempt ok =>
    have hs : c.attempt ok = .ok d := hs
    unfold Conn.attempt at hs
    split at hs
    · simp only at hs
      split at hs
      · cases hs; exact h.same rfl rfl rfl
      · refine Spares.release ?_ hs
        exact h.of rfl rfl (new := [_]) rfl (by simp)
    · split at hs
      · cases hs; exact h.same rfl rfl rfl
      · cases hs; exact h.same rfl rfl rfl
  | disconnectTask => cases hs; exact h.same rfl rfl rfl
  | close => cases hs; exact h.same rfl rfl rfl
  | shutdown => cases hs; exact h.shutdown

theorem reachable_spares {c : Conn} (h : Reachable (fun _ e => e ≠ .connect true) c) : Spares [] c := by
  induction h with
  | init => exact ⟨rfl, nofun, by simp⟩
  | step _ _ _ he hs ih => exact spares_step ih he hs

theorem Run.spares {c d : Conn} {es : List Event} {n : Nat} (r : Run c es n d) (h : Spares old c)
    (he : .connect true ∉ es) : Spares old d := by
  induction r with
  | nil => exact h
  | snoc r _ _ hs ih =>
    exact spares_step (ih fun hx => he (List.mem_append_left _ hx)) (fun hx => he (by simp [hx])) hs

end Mqtt.Client311
