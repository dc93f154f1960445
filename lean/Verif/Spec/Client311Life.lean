import Verif.Client311

/-! What the callbacks of a 3.1.1 connection tell of it. -/
namespace Mqtt.Client311

/-- What has been told of a connection: nothing (or that it has ended), that `connect` has been accepted, that it is
established, that it is interrupted. -/
inductive Life where
  | none
  | asked
  | up
  | lost
deriving DecidableEq, Repr

/-- What may be told when: `connect` is accepted only when there is no connection; it is answered once; only an
established connection is interrupted, and only an interrupted one is resumed; a disconnect ends an established or an
interrupted one. -/
def Life.next : Life → Trace → Option Life
  | .none, .connecting => some .asked
  | _, .connecting => Option.none
  | .asked, .connectionComplete true => some .up
  | .asked, .connectionComplete false => some .none
  | _, .connectionComplete _ => Option.none
  | .up, .interrupted => some .lost
  | _, .interrupted => Option.none
  | .lost, .resumed => some .up
  | _, .resumed => Option.none
  | .up, .disconnected => some .none
  | .lost, .disconnected => some .none
  | _, .disconnected => Option.none
  | l, _ => some l

/-- What has been told by a log; `none` if something is out of order. -/
def lifeFrom (l : Life) : List Trace → Option Life
  | [] => some l
  | t :: ts => (l.next t).bind (lifeFrom · ts)

def life (log : List Trace) : Option Life := lifeFrom .none log

end Mqtt.Client311
