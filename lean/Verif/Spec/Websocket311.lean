import Verif.Websocket311

/-! The courses an attempt to open a websocket may take. -/
namespace Mqtt.Websocket311

/-- The request is made and given to the user's transformer, if there is one. -/
def prepared (o : Options) (r : Nat) : List Effect := [.made r] ++ if o.transformer then [.transform r] else []

/-- The websocket is opened with it, and the request released. -/
def tried (o : Options) (r : Nat) : List Effect := prepared o r ++ [.connect r, .released r]

/-- The attempt number `r` from beginning to end. -/
inductive Course (o : Options) (r : Nat) : List Effect → Prop where
  /-- The request cannot be completed. -/
  | spoilt : Course o r [.made r, .released r]
  /-- The user reports that they could not transform it. -/
  | untransformed (h : o.transformer = true) : Course o r [.made r, .transform r, .released r]
  /-- The websocket cannot be opened, or not be used. -/
  | unopened : Course o r (tried o r)
  /-- The user refuses the response. -/
  | refused (h : o.validator = true) : Course o r (tried o r ++ [.validate r false])
  /-- MQTT is spoken. -/
  | used : Course o r (tried o r ++ (if o.validator then [.validate r true] else []) ++ [.install r])

/-- `n` attempts, one after the other. -/
inductive Past (o : Options) : Nat → List Effect → Prop where
  | nil : Past o 0 []
  | next {n : Nat} {l w : List Effect} (h : Past o n l) (hc : Course o n w) : Past o (n + 1) (l ++ w)

/-- The attempt number `r` while it goes on. -/
inductive Ongoing (o : Options) (r : Nat) : List Effect → Prop where
  /-- With the user. -/
  | given (h : o.transformer = true) : Ongoing o r [.made r, .transform r]
  | connecting : Ongoing o r (prepared o r ++ [.connect r])

end Mqtt.Websocket311
