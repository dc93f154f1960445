import Verif.Lemmas.Client5Stream
import Verif.Lemmas.Client5Connect
import Verif.Lemmas.ManualAck5
import Verif.Props.C56

/-!
Where the numbers in the packets of the MQTT 5 client come from.
-/
namespace Mqtt.Client5

open Mqtt.V5

/-- Where a packet that is begun comes from. -/
structure Source (log : List Effect) (u : Nat) (p : Outgoing) : Prop where
  origin : Origin log u p
  id : packetId p ≤ 65535
  puback : ∀ v, p = .puback v → .pubackQueued u v.packetId ∈ log ∧ v = { packetId := v.packetId }

theorem Source.mono {log new : List Effect} {u : Nat} {p : Outgoing} (h : Source log u p) : Source (log ++ new) u p :=
  ⟨h.origin.mono, h.id, fun v hv => ⟨List.mem_append_left _ (h.puback v hv).1, (h.puback v hv).2⟩⟩

structure SourceInv (cfg : Config) (c : Client) : Prop where
  size : SizeInv cfg c
  puback : PubackInv c
  pack : PackInv c
  source : ∀ u p w, .started u p w ∈ c.ops.log → Source c.ops.log u p

theorem source_move {cfg : Config} {c c' : Client} (h : SourceInv cfg c) (m : Move cfg c c') : SourceInv cfg c' := by
  have hh := h.size.safe.inv.held
  have hlive := h.size.safe.inv.live
  refine ⟨size_move h.size m, puback_move hh hlive h.puback m, pack_move hh hlive h.puback h.pack m, ?_⟩
  intro u p w hx
  obtain ⟨new, hl, hn | ⟨op, op', rest, n, enc, rfl, hq, _, _, hb, _⟩⟩ := move_started m
  · rw [hl] at hx ⊢
    rcases List.mem_append.1 hx with hx | hx
    · exact (h.source u p w hx).mono
    · exact absurd rfl (hn _ hx u p w)
  · rw [hl] at hx ⊢
    rcases List.mem_append.1 hx with hx | hx
    · exact (h.source u p w hx).mono
    · simp only [List.mem_singleton, Effect.started.injEq] at hx
      obtain ⟨rfl, rfl, _⟩ := hx
      have hheld : op ∈ c.ops.held := by simp [OpState.held, hq]
      obtain ⟨_, _, hid, _⟩ := bind_spec hb hlive.next (hlive.ids op hheld)
      refine Source.mono ⟨?_, hid, fun v hv => ?_⟩
      · rcases bind_cases hb with ⟨_, _, rfl⟩ | ⟨_, i, _, _, rfl⟩
        · exact h.size.safe.origin op' hheld
        · exact (h.size.safe.origin op hheld).congr (by simp)
      · have hop : op' = op := by
          rcases bind_cases hb with ⟨_, _, h1⟩ | ⟨h1, i, _, _, rfl⟩
          · exact h1
          · cases hp : op.packet <;> simp [hp, withPacketId, needsId, requiresAck] at hv h1
        subst hop
        obtain ⟨a, b, h1, _⟩ := h.puback.wait op' (by simp [OpState.waiting, hq]) v hv
        have h2 : Effect.pubackQueued op'.uid v.packetId ∈ c.ops.log := by rw [h1]; simp
        refine ⟨h2, ?_⟩
        have h3 := h.pack.packet op' hheld _ h2
        rw [hv] at h3
        injection h3

theorem reachable_source {cfg : Config} {c : Client} (h : Reachable cfg c) : SourceInv cfg c :=
  (reachable_inv (P := SourceInv cfg)
    ⟨reachable_size .new, puback_new cfg, pack_new cfg, by simp [Client.new]⟩
    (fun _ _ => source_move) h)

/-- A PUBACK is queued for a publish that was delivered. -/
theorem queued_delivered {cfg : Config} {c : Client} (h : Reachable cfg c) {u id : Nat}
    (hq : .pubackQueued u id ∈ c.ops.log) : ∃ v ctl, .delivered v ctl ∈ c.ops.log ∧ v.packetId = id := by
  have ho := (reachable_manual h).2.2.before
  obtain ⟨a, b, hab⟩ := List.append_of_mem hq
  obtain ⟨x, y, hxy, hc⟩ := (ho a _ b hab).cause u id rfl
  have hlog : c.ops.log = x ++ y :: (.pubackQueued u id :: b) := by rw [hab, hxy]; simp
  rcases hc with ⟨v, rfl, _, hv⟩ | ⟨ctl, rfl⟩
  · exact ⟨v, none, by rw [hlog]; simp, hv⟩
  · obtain ⟨⟨a', v, b', h1, h2, _⟩, _⟩ := (ho x _ _ hlog).invoked ctl id rfl
    exact ⟨v, some ctl, by rw [hlog, h1]; simp, h2⟩

end Mqtt.Client5
