import Verif.Encoder5
import Verif.Lemmas.Vli5

namespace Mqtt.V5

/-- The bytes a step stands for. -/
def Step.bytes : Step → Bytes
  | .u8 v => [v]
  | .u16 v => be16 v
  | .u32 v => be32 v
  | .vli v => vliBytes v
  | .cursor v => v

def stepsBytes (steps : List Step) : Bytes := steps.flatMap Step.bytes

@[simp] theorem stepsBytes_nil : stepsBytes [] = [] := rfl
@[simp] theorem stepsBytes_cons (s : Step) (r : List Step) : stepsBytes (s :: r) = s.bytes ++ stepsBytes r := rfl
@[simp] theorem stepsBytes_append (a b : List Step) : stepsBytes (a ++ b) = stepsBytes a ++ stepsBytes b := by
  simp [stepsBytes]

/-- The steps a push leaves in the list have values the writer accepts. -/
def Step.Ok : Step → Prop
  | .vli v => v ≤ maxVli
  | _ => True

theorem pushSteps_ok (steps : List Step) : ∀ s ∈ (pushSteps steps).1, s.Ok := by
  induction steps with
  | nil => simp [pushSteps]
  | cons s r ih =>
    cases s with
    | vli v =>
      simp only [pushSteps]
      split
      · simp
      · intro s hs
        rcases List.mem_cons.mp hs with rfl | hs
        · simp only [Step.Ok]; omega
        · exact ih s hs
    | u8 v => intro s hs; rcases List.mem_cons.mp hs with rfl | hs; exact trivial; exact ih s hs
    | u16 v => intro s hs; rcases List.mem_cons.mp hs with rfl | hs; exact trivial; exact ih s hs
    | u32 v => intro s hs; rcases List.mem_cons.mp hs with rfl | hs; exact trivial; exact ih s hs
    | cursor v => intro s hs; rcases List.mem_cons.mp hs with rfl | hs; exact trivial; exact ih s hs

/-- A push that succeeds leaves everything in the list. -/
theorem pushSteps_true {steps : List Step} (h : (pushSteps steps).2 = true) :
    (pushSteps steps).1 = steps ∧ ∀ s ∈ steps, s.Ok := by
  have : (pushSteps steps).1 = steps := by
    induction steps with
    | nil => rfl
    | cons s r ih =>
      cases s with
      | vli v =>
        simp only [pushSteps] at h ⊢
        split at h
        · simp at h
        · rename_i hv
          rw [if_neg hv]
          simp only at h ⊢
          rw [ih h]
      | u8 v => simp only [pushSteps] at h ⊢; rw [ih h]
      | u16 v => simp only [pushSteps] at h ⊢; rw [ih h]
      | u32 v => simp only [pushSteps] at h ⊢; rw [ih h]
      | cursor v => simp only [pushSteps] at h ⊢; rw [ih h]
  exact ⟨this, by rw [← this]; exact pushSteps_ok steps⟩

theorem pushSteps_eq {steps : List Step} (h : ∀ s ∈ steps, s.Ok) : pushSteps steps = (steps, true) := by
  induction steps with
  | nil => rfl
  | cons s r ih =>
    have ih := ih fun s hs => h s (List.mem_cons_of_mem _ hs)
    cases s with
    | vli v =>
      have hv : v ≤ maxVli := h (.vli v) (by simp)
      simp only [pushSteps]; rw [if_neg (by omega), ih]
    | u8 v => simp only [pushSteps]; rw [ih]
    | u16 v => simp only [pushSteps]; rw [ih]
    | u32 v => simp only [pushSteps]; rw [ih]
    | cursor v => simp only [pushSteps]; rw [ih]

/-- What is left to write, counting each step as one more so that empty cursors count. -/
def weight (steps : List Step) : Nat := (stepsBytes steps).length + steps.length

/-- One step: what is written and what is left make up the step, and with four bytes of room something
is achieved. -/
theorem executeStep_spec (s : Step) (hs : s.Ok) (buf : Buf) (hb : buf.data.length ≤ buf.cap) :
    ∃ out, (executeStep s buf).2.1 = { buf with data := buf.data ++ out } ∧
      (buf.data ++ out).length ≤ buf.cap ∧
      ((executeStep s buf).1 = .finished ∧ out = s.bytes ∨
        (executeStep s buf).1 = .outOfRoom ∧ (executeStep s buf).2.2.Ok ∧
        s.bytes = out ++ (executeStep s buf).2.2.bytes ∧
        (buf.data.length + 4 ≤ buf.cap → 1 ≤ out.length)) := by
  cases s with
  | u8 v =>
    simp only [executeStep]
    split
    · exact ⟨[], by simp, by simpa using hb, .inr ⟨rfl, hs, by simp, by simp; omega⟩⟩
    · exact ⟨[v], rfl, by simp; omega, .inl ⟨rfl, rfl⟩⟩
  | u16 v =>
    simp only [executeStep]
    split
    · exact ⟨[], by simp, by simpa using hb, .inr ⟨rfl, hs, by simp, by simp; omega⟩⟩
    · exact ⟨be16 v, rfl, by simp; omega, .inl ⟨rfl, rfl⟩⟩
  | u32 v =>
    simp only [executeStep]
    split
    · exact ⟨[], by simp, by simpa using hb, .inr ⟨rfl, hs, by simp, by simp; omega⟩⟩
    · exact ⟨be32 v, rfl, by simp; omega, .inl ⟨rfl, rfl⟩⟩
  | vli v =>
    have hv : v ≤ maxVli := hs
    have hl := vliBytes_length_le v hv
    simp only [executeStep]
    split
    · exact ⟨[], by simp, by simpa using hb, .inr ⟨rfl, hs, by simp, by simp; omega⟩⟩
    · have he : encodeVli buf v = .ok { buf with data := buf.data ++ vliBytes v } := by
        unfold encodeVli Buf.put
        rw [if_neg (by omega), if_pos (by omega)]
      rw [he]
      exact ⟨vliBytes v, rfl, by simp; omega, .inl ⟨rfl, rfl⟩⟩
  | cursor v =>
    simp only [executeStep]
    split
    · exact ⟨[], by simp, by simpa using hb, .inr ⟨rfl, hs, by simp, by simp; omega⟩⟩
    · rename_i hroom
      refine ⟨v.take (buf.cap - buf.data.length), rfl, ?_, ?_⟩
      · simp only [List.length_append, List.length_take]; omega
      · simp only [List.length_drop]
        split
        · left; exact ⟨rfl, List.take_of_length_le (by omega)⟩
        · right
          refine ⟨rfl, trivial, by simp [Step.bytes], ?_⟩
          intro _
          simp only [List.length_take]; omega

theorem encodeSteps_spec (steps : List Step) (hs : ∀ s ∈ steps, s.Ok) (buf : Buf)
    (hb : buf.data.length ≤ buf.cap) :
    ∃ out, (encodeSteps steps buf).2.1 = { buf with data := buf.data ++ out } ∧
      (buf.data ++ out).length ≤ buf.cap ∧
      stepsBytes steps = out ++ stepsBytes (encodeSteps steps buf).2.2 ∧
      (∀ s ∈ (encodeSteps steps buf).2.2, s.Ok) ∧
      ((encodeSteps steps buf).1 = .finished ∧ (encodeSteps steps buf).2.2 = [] ∨
        (encodeSteps steps buf).1 = .outOfRoom ∧
        weight (encodeSteps steps buf).2.2 ≤ weight steps ∧
        (buf.data.length + 4 ≤ buf.cap → weight (encodeSteps steps buf).2.2 < weight steps)) := by
  induction steps generalizing buf with
  | nil => exact ⟨[], by simp [encodeSteps], by simpa using hb, by simp [encodeSteps], by simp [encodeSteps],
      .inl ⟨rfl, rfl⟩⟩
  | cons s r ih =>
    obtain ⟨out, ho, hlen, hcase⟩ := executeStep_spec s (hs s (by simp)) buf hb
    have hr : ∀ s ∈ r, s.Ok := fun s h => hs s (List.mem_cons_of_mem _ h)
    rcases hx : executeStep s buf with ⟨res, buf', s'⟩
    rw [hx] at ho hcase
    simp only at ho hcase
    subst ho
    rcases hcase with ⟨hres, hout⟩ | ⟨hres, hok, hbytes, hprog⟩
    · subst hres
      have he : encodeSteps (s :: r) buf = encodeSteps r { buf with data := buf.data ++ out } := by
        rw [encodeSteps, hx]
      obtain ⟨out2, ho2, hlen2, hb2, hok2, hc2⟩ := ih hr { buf with data := buf.data ++ out } hlen
      rw [he]
      refine ⟨out ++ out2, by rw [ho2]; simp, by simpa using hlen2, by simp [hb2, hout], hok2, ?_⟩
      have hw : weight (s :: r) = s.bytes.length + weight r + 1 := by
        simp only [weight, stepsBytes_cons, List.length_append, List.length_cons]; omega
      rcases hc2 with h | ⟨h1, h2, _⟩
      · exact .inl h
      · exact .inr ⟨h1, by omega, by intro _; omega⟩
    · subst hres
      have he : encodeSteps (s :: r) buf =
          (.outOfRoom, { buf with data := buf.data ++ out }, s' :: r) := by
        rw [encodeSteps, hx]
      rw [he]
      have hbl := congrArg List.length hbytes
      simp only [List.length_append] at hbl
      have hw : weight (s :: r) = s.bytes.length + weight r + 1 := by
        simp only [weight, stepsBytes_cons, List.length_append, List.length_cons]; omega
      have hw' : weight (s' :: r) = s'.bytes.length + weight r + 1 := by
        simp only [weight, stepsBytes_cons, List.length_append, List.length_cons]; omega
      refine ⟨out, rfl, hlen, by simp [hbytes], ?_, .inr ⟨rfl, by simp only; omega, ?_⟩⟩
      · intro x hx
        rcases List.mem_cons.mp hx with rfl | hx
        · exact hok
        · exact hr x hx
      · intro h4
        have := hprog h4
        simp only; omega

/-- With room for everything plus the four bytes a number step asks for, one call finishes. -/
theorem encodeSteps_all (steps : List Step) (hs : ∀ s ∈ steps, s.Ok) (buf : Buf)
    (hb : buf.data.length + (stepsBytes steps).length + 4 ≤ buf.cap) :
    encodeSteps steps buf = (.finished, { buf with data := buf.data ++ stepsBytes steps }, []) := by
  induction steps generalizing buf with
  | nil => simp [encodeSteps]
  | cons s r ih =>
    simp only [stepsBytes_cons, List.length_append] at hb
    have hx : (executeStep s buf).1 = .finished := by
      cases s with
      | u8 v => simp only [executeStep]; rw [if_neg (by omega)]
      | u16 v => simp only [executeStep]; rw [if_neg (by omega)]
      | u32 v => simp only [executeStep]; rw [if_neg (by omega)]
      | vli v =>
        simp only [executeStep]; rw [if_neg (by omega)]
        split <;> rfl
      | cursor v =>
        simp only [executeStep, Step.bytes] at hb ⊢; rw [if_neg (by omega)]
        simp only [List.length_drop]
        rw [if_pos (by omega)]
    obtain ⟨out, ho, hlen, hcase⟩ := executeStep_spec s (hs s (by simp)) buf (by omega)
    rcases hy : executeStep s buf with ⟨res, buf', s'⟩
    rw [hy] at ho hcase hx
    simp only at ho hcase hx
    subst hx
    have hout : out = s.bytes := by
      rcases hcase with ⟨_, h⟩ | ⟨h, _⟩
      · exact h
      · simp at h
    subst hout; subst ho
    rw [encodeSteps, hy]
    simp only
    rw [ih (fun s h => hs s (List.mem_cons_of_mem _ h)) _ (by simp only [List.length_append]; omega)]
    simp

end Mqtt.V5
