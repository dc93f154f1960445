import Verif.Lemmas.Encoder5

/-!
C20: the output of the MQTT 5 encoder does not depend on the sizes of the output buffers, and draining it
terminates when every buffer has at least four bytes of room.
-/
namespace Mqtt.Props
open Mqtt.V5

/-- Offer the buffers one after the other until the encoder reports that it has finished: the bytes added
to them, whether it finished, and the encoder afterwards. -/
def drain : List Buf → Encoder → Bytes × Bool × Encoder
  | [], e => ([], false, e)
  | b :: bs, e =>
    match e.encodeToBuffer b with
    | (.finished, b', e) => (b'.data.drop b.data.length, true, e)
    | (.outOfRoom, b', e) => (b'.data.drop b.data.length ++ (drain bs e).1, (drain bs e).2)

/-- A buffer never holds more than its capacity. -/
def BufOk (b : Buf) : Prop := b.data.length ≤ b.cap

/-- The encoders that can arise: packets are appended, buffers are filled, the step list is reset. -/
inductive Reachable : Encoder → Prop
  | init (r : Option TopicAlias.Outbound) : Reachable { steps := [], resolver := r }
  | append (e : Encoder) (p : Outgoing) (e' : Encoder) (h : Reachable e)
      (ha : e.append p = .ok e' ∨ e.append p = .failed e') : Reachable e'
  | fill (e : Encoder) (b : Buf) (h : Reachable e) (hb : BufOk b) : Reachable (e.encodeToBuffer b).2.2
  | reset (e : Encoder) (h : Reachable e) : Reachable { e with steps := [] }

theorem push_ok {e e' : Encoder} {steps : Option (List Step)} (h : ∀ s ∈ e.steps, s.Ok)
    (hp : e.push steps = .ok e' ∨ e.push steps = .failed e') : ∀ s ∈ e'.steps, s.Ok := by
  unfold Encoder.push at hp
  cases steps with
  | none => simp at hp; subst hp; exact h
  | some steps =>
    have hok := pushSteps_ok steps
    have key : e' = { e with steps := e.steps ++ (pushSteps steps).1 } := by
      simp only at hp
      split at hp <;> simp at hp <;> exact hp.symm
    subst key
    intro s hs
    rcases List.mem_append.mp hs with hs | hs
    · exact h s hs
    · exact hok s hs

theorem append_ok {e e' : Encoder} {p : Outgoing} (h : ∀ s ∈ e.steps, s.Ok)
    (ha : e.append p = .ok e' ∨ e.append p = .failed e') : ∀ s ∈ e'.steps, s.Ok := by
  cases p with
  | publish v =>
    simp only [Encoder.append] at ha
    cases hr : e.resolver with
    | none => simp only [hr] at ha; exact push_ok h ha
    | some r =>
      simp only [hr] at ha
      cases hb : TopicAlias.beginPublish r v.topic v.topicAlias with
      | refused => simp only [hb] at ha; simp at ha; subst ha; exact h
      | abort => simp only [hb] at ha; simp at ha
      | ok r t a =>
        simp only [hb] at ha
        exact push_ok (e := { e with resolver := some r }) h ha
  | connect v => exact push_ok h ha
  | puback v => exact push_ok h ha
  | subscribe v => exact push_ok h ha
  | unsubscribe v => exact push_ok h ha
  | pingreq => exact push_ok (steps := packetSteps .pingreq) h ha
  | disconnect v => exact push_ok h ha

theorem reachable_ok {e : Encoder} (h : Reachable e) : ∀ s ∈ e.steps, s.Ok := by
  induction h with
  | init => simp
  | append e p e' _ ha ih => exact append_ok ih ha
  | fill e b _ hb ih =>
    obtain ⟨_, _, _, _, hok, _⟩ := encodeSteps_spec e.steps ih b hb
    unfold Encoder.encodeToBuffer
    rcases hx : encodeSteps e.steps b with ⟨res, b', rest⟩
    rw [hx] at hok
    cases res with
    | finished => simp
    | outOfRoom => exact hok
  | reset => simp

/-- C20: one buffer that is large enough takes everything in one call. -/
theorem C20_one_buffer (e : Encoder) (h : Reachable e) :
    ∃ n all, ∀ cap, n ≤ cap →
      e.encodeToBuffer ⟨cap, []⟩ = (.finished, ⟨cap, all⟩, { e with steps := [] }) := by
  refine ⟨(stepsBytes e.steps).length + 4, stepsBytes e.steps, ?_⟩
  intro cap hcap
  unfold Encoder.encodeToBuffer
  rw [encodeSteps_all e.steps (reachable_ok h) ⟨cap, []⟩ (by simp; omega)]
  simp

theorem drain_spec (bufs : List Buf) (e : Encoder) (h : ∀ s ∈ e.steps, s.Ok) (hb : ∀ b ∈ bufs, BufOk b) :
    stepsBytes e.steps = (drain bufs e).1 ++ stepsBytes (drain bufs e).2.2.steps ∧
    ((drain bufs e).2.1 = true → (drain bufs e).2.2 = { e with steps := [] }) ∧
    ((∀ b ∈ bufs, b.data.length + 4 ≤ b.cap) → weight e.steps < bufs.length → (drain bufs e).2.1 = true) := by
  induction bufs generalizing e with
  | nil => simp [drain]
  | cons b bs ih =>
    have hb0 : BufOk b := hb b (by simp)
    have hbs : ∀ b ∈ bs, BufOk b := fun b h => hb b (List.mem_cons_of_mem _ h)
    obtain ⟨out, ho, hlen, hbytes, hok, hcase⟩ := encodeSteps_spec e.steps h b hb0
    rcases hx : encodeSteps e.steps b with ⟨res, b', rest⟩
    rw [hx] at ho hbytes hok hcase
    simp only at ho hbytes hok hcase
    subst ho
    rcases hcase with ⟨h1, h2⟩ | ⟨h1, h2, h3⟩
    · subst h1; subst h2
      have he : e.encodeToBuffer b =
          (.finished, { b with data := b.data ++ out }, { e with steps := [] }) := by
        unfold Encoder.encodeToBuffer; rw [hx]
      rw [drain, he]
      simp [hbytes]
    · subst h1
      have he : e.encodeToBuffer b =
          (.outOfRoom, { b with data := b.data ++ out }, { e with steps := rest }) := by
        unfold Encoder.encodeToBuffer; rw [hx]
      obtain ⟨i1, i2, i3⟩ := ih { e with steps := rest } hok hbs
      rw [drain, he]
      simp only [List.drop_left]
      refine ⟨by rw [hbytes, i1]; simp, i2, ?_⟩
      intro h4 hw
      apply i3 (fun b h => h4 b (List.mem_cons_of_mem _ h))
      have := h3 (h4 b (by simp))
      simp only [List.length_cons] at hw
      simp only; omega

/-- C20: whatever the buffers, the bytes put into them are, concatenated, those that one large buffer
gets; before the end they are an initial part of them. -/
theorem C20_same_bytes (e : Encoder) (h : Reachable e) (cap : Nat) (all : Bytes) (e' : Encoder)
    (hone : e.encodeToBuffer ⟨cap, []⟩ = (.finished, ⟨cap, all⟩, e')) (bufs : List Buf)
    (hb : ∀ b ∈ bufs, BufOk b) :
    ((drain bufs e).2.1 = true → (drain bufs e).1 = all ∧ (drain bufs e).2.2 = e') ∧
    (drain bufs e).1 <+: all := by
  have hok := reachable_ok h
  have hall : all = stepsBytes e.steps ∧ e' = { e with steps := [] } := by
    obtain ⟨out, ho, _, hbytes, _, hcase⟩ := encodeSteps_spec e.steps hok ⟨cap, []⟩ (by simp)
    unfold Encoder.encodeToBuffer at hone
    rcases hx : encodeSteps e.steps ⟨cap, []⟩ with ⟨res, b', rest⟩
    rw [hx] at hone ho hbytes hcase
    simp only at hone ho hbytes hcase
    rcases hcase with ⟨h1, h2⟩ | ⟨h1, _⟩
    · subst h1; subst h2; subst ho
      simp at hone hbytes
      exact ⟨by rw [← hone.1, hbytes], hone.2.symm⟩
    · subst h1; simp at hone
  obtain ⟨h1, h2, _⟩ := drain_spec bufs e hok hb
  obtain ⟨rfl, rfl⟩ := hall
  refine ⟨fun hf => ⟨?_, h2 hf⟩, ?_⟩
  · have := h2 hf
    rw [this] at h1
    simpa using h1.symm
  · exact ⟨_, h1.symm⟩

/-- C20: if every buffer offered has at least four bytes of room, the encoder finishes after a bounded
number of them. -/
theorem C20_terminates (e : Encoder) (h : Reachable e) :
    ∃ n, ∀ bufs : List Buf, (∀ b ∈ bufs, b.data.length + 4 ≤ b.cap) → n ≤ bufs.length →
      (drain bufs e).2.1 = true := by
  refine ⟨weight e.steps + 1, ?_⟩
  intro bufs hb hn
  have hok : ∀ b ∈ bufs, BufOk b := fun b h => by have := hb b h; unfold BufOk; omega
  exact (drain_spec bufs e (reachable_ok h) hok).2.2 hb (by omega)

/-- A PINGREQ and a PUBLISH through buffers of different sizes, one of them partly filled before. -/
def exampleEncoder : Encoder :=
  match (({} : Encoder).append .pingreq) with
  | .ok e =>
    match e.append (.publish { topic := [97, 98, 99, 100, 101, 102], payload := [1, 2, 3] }) with
    | .ok e => e
    | _ => {}
  | _ => {}

example : Reachable exampleEncoder := by
  have h1 := Reachable.append {} .pingreq _ (.init none) (.inl rfl)
  exact Reachable.append _ (.publish { topic := [97, 98, 99, 100, 101, 102], payload := [1, 2, 3] }) _ h1
    (.inl rfl)

example :
    drain [⟨4, []⟩, ⟨6, [9, 9]⟩, ⟨7, []⟩, ⟨4, []⟩, ⟨4, []⟩] exampleEncoder =
      ([192, 0, 48, 12, 0, 6, 97, 98, 99, 100, 101, 102, 0, 1, 2, 3], true, {}) ∧
    exampleEncoder.encodeToBuffer ⟨100, []⟩ =
      (.finished, ⟨100, [192, 0, 48, 12, 0, 6, 97, 98, 99, 100, 101, 102, 0, 1, 2, 3]⟩, {}) := by
  decide +kernel

/-- Without the four bytes of room the encoder may never finish: three bytes do not hold a length. -/
example : (drain (List.replicate 50 ⟨3, []⟩) exampleEncoder).2.1 = false := by
  decide +kernel

end Mqtt.Props
