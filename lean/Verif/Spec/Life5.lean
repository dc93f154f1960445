import Verif.Life5

/-!
What is known of the life of an MQTT 5 client from what was seen.
-/
namespace Mqtt.Life5

/-- A connection attempt has begun, and neither it nor the connection it led to has ended. -/
def attempting (log : List Entry) : Bool :=
  log.foldl (fun r e => match e with
    | .attempt => true
    | .failed => false
    | .closed => false
    | _ => r) false

/-- A handshake request was made, and the outcome of the connection is not known. -/
def handshaking (log : List Entry) : Bool :=
  log.foldl (fun r e => match e with
    | .asked => true
    | .opened => false
    | .spoiled => false
    | .failed => false
    | _ => r) false

/-- The user has this many references: one from the start, and those that were acquired, but for those that were released. -/
def Held (log : List Entry) (n : Nat) : Prop := n + log.count .released = 1 + log.count .acquired

/-- What can come about from a state, and what is seen on the way. -/
inductive Later (ws : Bool) : Client → List Entry → Client → Prop
  | here (c : Client) : Later ws c [] c
  | step {c d : Client} {log : List Entry} (h : Later ws c log d) (e : Event) (he : Enabled ws d e) :
      Later ws c (log ++ (Life5.step ws d e).2) (Life5.step ws d e).1

/-- Steps in order. -/
def playFrom (ws : Bool) (c : Client) (log : List Entry) : List Event → Client × List Entry
  | [] => (c, log)
  | e :: es => playFrom ws (step ws c e).1 (log ++ (step ws c e).2) es

def play (ws : Bool) (events : List Event) : Client × List Entry := playFrom ws {} [] events

/-- Each of the steps is possible. -/
def Plays (ws : Bool) (c : Client) : List Event → Prop
  | [] => True
  | e :: es => Enabled ws c e ∧ Plays ws (step ws c e).1 es

instance (ws : Bool) : (c : Client) → (es : List Event) → Decidable (Plays ws c es)
  | _, [] => isTrue trivial
  | c, e :: es =>
    have := instDecidablePlays ws (step ws c e).1 es
    inferInstanceAs (Decidable (Enabled ws c e ∧ Plays ws (step ws c e).1 es))

theorem plays_reachable {ws : Bool} {events : List Event} (h : Plays ws {} events) :
    Reachable ws (play ws events).1 (play ws events).2 := by
  suffices ∀ (es : List Event) (c : Client) (log : List Entry), Reachable ws c log → Plays ws c es →
      Reachable ws (playFrom ws c log es).1 (playFrom ws c log es).2 from this events {} [] .init h
  intro es
  induction es with
  | nil => intro c log hr _; exact hr
  | cons e es ih => intro c log hr hp; exact ih _ _ (.step hr e hp.1) hp.2

end Mqtt.Life5
