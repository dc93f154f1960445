import Verif.Packets311

/-!
How the 3.1.1 client turns packets into channel messages: `mqtt_get_message_for_packet`
(client_channel_handler.c:726-743) and the publish send loop (client.c:3180-3243).

Assumption about aws-c-io: `aws_channel_acquire_message_from_pool(size)` returns a message whose
buffer has capacity min(`g_aws_channel_max_fragment_size` = 16384, size). Acquisition and sending
never fail here.
-/
namespace Mqtt

/-- `g_aws_channel_max_fragment_size` of aws-c-io. -/
def maxFragment : Nat := 16384

/-- Capacity of the message obtained from `mqtt_get_message_for_packet`
(client_channel_handler.c:730-733): at most `3 + remaining_length`. -/
def messageCapacity (remainingLength : Nat) : Nat := min maxFragment (3 + remainingLength)

/-- Empty message for a packet with this header. -/
def messageFor (h : FixedHeader) : Buf := { cap := messageCapacity h.remainingLength, data := [] }

/-- Loop `write_payload_chunk` of `s_publish_send` (client.c:3210-3243): `b` is the message being
filled, the result is the list of messages sent. -/
def publishChunks (cap : Nat) (hcap : 0 < cap) (data payload : Bytes) : List Bytes :=
  if h : payload.drop (min payload.length (cap - data.length)) = [] then                -- 3215-3216
    [data ++ payload.take (min payload.length (cap - data.length))]                     -- 3218-3233
  else
    (data ++ payload.take (min payload.length (cap - data.length))) ::
      publishChunks cap hcap [] (payload.drop (min payload.length (cap - data.length))) -- 3236-3239
termination_by payload.length + (if data = [] then 0 else 1)
decreasing_by
  simp only [if_true, List.length_drop]
  by_cases hd : data = []
  · subst hd
    have : payload ≠ [] := by intro h2; simp [h2] at h
    have := List.length_pos_iff.2 this
    simp only [if_true, List.length_nil, Nat.sub_zero]; omega
  · simp only [hd, if_false]; omega

/-- `s_publish_send` from the acquisition of the message to the end of the payload loop
(client.c:3199-3241). -/
def publishSend (p : PublishPacket) : Except Err (List Bytes) := do
  let b ← publishEncodeHeaders (messageFor p.header) p
  .ok (publishChunks (messageCapacity p.header.remainingLength) (by simp [messageCapacity, maxFragment]; omega)
    b.data p.payload)

end Mqtt
