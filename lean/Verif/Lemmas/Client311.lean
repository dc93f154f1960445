import Verif.Lemmas.Client311Store

/-! Invariants of the 3.1.1 connection: control state, and every request is in exactly one place. -/
namespace Mqtt.Client311

theorem set_del (m : AMap Nat Request) (u : Nat) (r : Request) : (m.set u r).del u = m.del u := by
  simp [AMap.set, AMap.del]

/-- Weight of a request in the statistics. -/
def weight (r : Request) (before now : Bool) : Int := if r.size = 0 then 0 else delta before now

theorem change_eq {c : Conn} {u : Nat} {r : Request} (h : c.reqs.get u = some r) (a b : Bool) :
    c.change u a b = { c with
      incompleteCount := c.incompleteCount + weight r r.incomplete a
      incompleteSize := c.incompleteSize + weight r r.incomplete a * r.size
      unackedCount := c.unackedCount + weight r r.unacked b
      unackedSize := c.unackedSize + weight r r.unacked b * r.size
      reqs := if r.size = 0 then c.reqs else c.reqs.set u { r with incomplete := a, unacked := b } } := by
  unfold Conn.change
  rw [h]
  by_cases e : r.size = 0
  · simp [e, weight]
  · simp [e, weight]

theorem complete_eq {c : Conn} {u : Nat} {r : Request} (h : c.reqs.get u = some r) (o : Outcome) :
    c.complete u o = { c with
      incompleteCount := c.incompleteCount + weight r r.incomplete false
      incompleteSize := c.incompleteSize + weight r r.incomplete false * r.size
      unackedCount := c.unackedCount + weight r r.unacked false
      unackedSize := c.unackedSize + weight r r.unacked false * r.size
      reqs := c.reqs.del u
      table := c.table.del r.id
      timers := c.timers.filter (· ≠ u)
      log := c.log ++ [.completed u o] } := by
  unfold Conn.complete
  rw [change_eq (c := c.tell (.completed u o)) (r := r) h]
  by_cases e : r.size = 0
  · simp [Conn.remove, Conn.tell, e, h]
  · simp [Conn.remove, Conn.tell, e, set_del]

/-- Requests whose callback `s_mqtt_client_shutdown` or `connect` have still to invoke. -/
def Busy.todo : Busy → List Nat
  | .cancelling _ todo _ => todo
  | _ => []

def Busy.all : Busy → List Nat
  | .cancelling all _ _ => all
  | _ => []

/-- Requests that have not been completed. -/
def Conn.live (c : Conn) : List Nat := c.pending ++ c.ongoing ++ c.tasks.map (·.1) ++ c.busy.todo

/-- The requests of the connection. -/
structure Held (c : Conn) : Prop where
  store : ∃ done, c.busy.all = done ++ c.busy.todo ∧ Store c.nextUid c.reqs c.table c.log c.live done
  timers : ∀ u ∈ c.timers, u ∈ c.ongoing
  lastId : c.lastId ≤ 65535
  first : c.lastId = 0 → c.table = []

/-- What is going on besides API calls. -/
structure Ctl (c : Conn) : Prop where
  off : c.state = .disconnected → c.busy = .idle ∧ c.opening = false ∧ c.chan = none ∧ c.reconnect ≠ .scheduled ∧
    c.pinned = false
  pin : c.state ≠ .disconnected → c.busy.inConnect = false → c.pinned = true
  conn : c.busy.inConnect = true → c.state = .connecting ∧ c.pinned = false ∧ c.held ≠ 0
  busyOpen : c.busy ≠ .idle → c.opening = false ∧ c.chan = none ∧ c.reconnect ≠ .scheduled
  driver : c.state ≠ .disconnected → c.busy = .idle →
    (c.opening = true ∧ c.chan = none ∧ c.reconnect ≠ .scheduled) ∨
    (c.opening = false ∧ c.chan ≠ none ∧ c.reconnect ≠ .scheduled) ∨
    (c.opening = false ∧ c.chan = none ∧ c.reconnect = .scheduled)
  noChan : c.chan = none → c.slot = false ∧ c.closing = false ∧ c.timers = [] ∧ c.ongoing = []
  task : c.disconnectTask = true → c.slot = true
  connected : c.state = .connected → c.slot = true ∧ c.reconnect ≠ .absent ∧ c.count ≠ 0
  reconnecting : c.state = .reconnecting → c.reconnect ≠ .absent ∧ c.count ≠ 0
  scheduled : c.reconnect = .scheduled → c.state = .reconnecting ∨ c.state = .disconnecting
  shut : ∀ all todo prev, c.busy = .cancelling all todo (.shutdown prev) →
    (prev = .connecting ∧ c.state = .connecting) ∨ (prev = .disconnecting ∧ c.state = .disconnecting) ∨
    ((prev = .connected ∨ prev = .reconnecting) ∧ (c.state = .reconnecting ∨ c.state = .disconnecting) ∧
      c.reconnect ≠ .absent)
  intr : c.busy = .interrupted → (c.state = .reconnecting ∨ c.state = .disconnecting) ∧ c.reconnect ≠ .absent
  dead : c.held = 0 → ∀ t ∈ c.tasks, some t.2 = c.chan
  chans : ∀ n, c.chan = some n → n < c.nextChan
  tchans : ∀ t ∈ c.tasks, t.2 < c.nextChan
  alive : c.destroyed = false → c.held ≠ 0 ∨ c.pinned = true

theorem Ctl.init : Ctl {} := by
  constructor <;> simp [Busy.inConnect]

theorem Held.init : Held {} where
  store := ⟨[], rfl, Store.init⟩
  timers := by simp
  lastId := by simp
  first := by simp

end Mqtt.Client311
