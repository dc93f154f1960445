{
 "claims": [
  {
   "property": "C01",
   "status": "partial",
   "theorems": [
    "Mqtt.Props.C01_remaining_length_roundtrip_partial",
    "Mqtt.Props.C01_encoder_exceeds_four_bytes_violated"
   ],
   "note": "Full round trip for every length up to 268435455. The last sentence (never more than 4 bytes) is false in the code for lengths >= 2^28; the negation is proved."
  },
  {
   "property": "C02",
   "status": "proved",
   "theorems": [
    "Mqtt.Props.C02_decode_ok_iff",
    "Mqtt.Props.C02_decode_failures",
    "Mqtt.Props.C02_decode_bound"
   ],
   "note": "Exact characterization of success, value, consumption and both failures."
  },
  {
   "property": "C03",
   "status": "partial",
   "theorems": [
    "Mqtt.Props.C03_ack_roundtrip",
    "Mqtt.Props.C03_connection_roundtrip",
    "Mqtt.Props.C03_connack_roundtrip",
    "Mqtt.Props.C03_publish_roundtrip",
    "Mqtt.Props.C03_subscribe_roundtrip",
    "Mqtt.Props.C03_suback_roundtrip",
    "Mqtt.Props.C03_unsubscribe_roundtrip",
    "Mqtt.Props.C03_connect_roundtrip_partial",
    "Mqtt.Props.C03_connect_two_wills_violated"
   ],
   "note": "All 14 packet types, encode into a spec-defined frame and decode back. CONNECT: only for at most one add_will call; two add_will calls announce a wrong length (negation proved)."
  },
  {
   "property": "C04",
   "status": "partial",
   "theorems": [
    "Mqtt.Props.C04_publish_faithful_partial",
    "Mqtt.Props.C04_publish_short_rejected",
    "Mqtt.Props.C04_publish_violated",
    "Mqtt.Props.C04_subscribe_violated"
   ],
   "note": "The property is false in the code (negations proved for PUBLISH and SUBSCRIBE). True part: every accepted PUBLISH with a non-empty topic is exactly what was on the wire; bodies too short for a prefix are rejected."
  },
  {
   "property": "C05",
   "status": "partial",
   "theorems": [
    "Mqtt.Props.C05_publish_truthful",
    "Mqtt.Props.C05_connect_truthful_partial",
    "Mqtt.Props.C05_subscribe_truthful_partial",
    "Mqtt.Props.C05_unsubscribe_truthful_partial",
    "Mqtt.Props.C05_subscribe_overlong_violated"
   ],
   "note": "Holds for PUBLISH with any contents and CONNECT with at most one will; for SUBSCRIBE/UNSUBSCRIBE only with filters up to 65535 bytes and enough room. For every over-long filter SUBSCRIBE reports success with too few bytes (negation proved for all such filters)."
  },
  {
   "property": "C54",
   "status": "partial",
   "theorems": [
    "Mqtt.Props.C54_connect_fits_partial",
    "Mqtt.Props.C54_subscribe_fits_partial",
    "Mqtt.Props.C54_unsubscribe_fits_partial",
    "Mqtt.Props.C54_publish_sent_whole",
    "Mqtt.Props.C54_connect_violated",
    "Mqtt.Props.C54_unsubscribe_truncated_violated",
    "Mqtt.Props.C54_subscribe_exact_partial",
    "Mqtt.Props.C54_unsubscribe_exact_partial",
    "Mqtt.Props.C54_unsubscribe_all_violated"
   ],
   "note": "Exact boundary: a CONNECT fits iff its body has at most 16381 bytes; a SUBSCRIBE or UNSUBSCRIBE is encoded completely iff the same holds. Larger legal packets fail (CONNECT) or are silently truncated (UNSUBSCRIBE, every one): negations proved. PUBLISH payloads of any size are sent whole."
  },
  {
   "property": "C06",
   "status": "proved",
   "theorems": [
    "Mqtt.Props.C06_chunking_independent",
    "Mqtt.Props.C06_same_stream_same_result"
   ],
   "note": "For every packet handler, handler state and chunking; also no fatal assertion of the decoder can fire."
  },
  {
   "property": "C07",
   "status": "proved",
   "theorems": [
    "Mqtt.Props.C07_exact_packets",
    "Mqtt.Props.C07_failure_is_final"
   ],
   "note": "Frames are described by the wire specification (any accepted length field, minimal or not); the tail is any strict prefix of a frame."
  },
  {
   "property": "C08",
   "status": "proved",
   "theorems": [
    "Mqtt.Props.C08_topic",
    "Mqtt.Props.C08_filter",
    "Mqtt.Props.C08_topic_is_filter",
    "Mqtt.Props.C08_levels_unique"
   ],
   "note": "Exact characterisation including the 1..65535 byte length rule and the text rule; aws_decode_utf8 is modelled from its contract."
  },
  {
   "property": "C09",
   "status": "partial",
   "theorems": [
    "Mqtt.Props.C09_dispatch_partial",
    "Mqtt.Props.C09_violated"
   ],
   "note": "Exact dispatch for every history and topic name, except filters parent/# whose parent matches the topic: these match but are never called (negation proved in general)."
  },
  {
   "property": "C10",
   "status": "proved",
   "theorems": [
    "Mqtt.Props.C10_contents",
    "Mqtt.Props.C10_user_data",
    "Mqtt.Props.C10_destroyed"
   ],
   "note": "Histories of SUBSCRIBE (one or many filters), UNSUBSCRIBE and aborted transactions, any hash iteration order."
  },
  {
   "property": "C11",
   "status": "partial",
   "theorems": [
    "Mqtt.Props.C11_strings_partial",
    "Mqtt.Props.C11_violated",
    "Mqtt.Props.C11_violated_duplicate"
   ],
   "note": "The property is false in the code (two negations). It holds, with every level readable and no double free, for all histories without duplicate filters in one SUBSCRIBE and without UNSUBSCRIBE of a filter above another subscription."
  },
  {
   "property": "C12",
   "status": "proved",
   "theorems": [
    "Mqtt.Props.C12_rollback"
   ],
   "note": "Same listing and same dispatch of every topic, and no cleanup call, after any rolled back transaction."
  },
  {
   "property": "C14",
   "status": "partial",
   "theorems": [
    "Mqtt.Props.C14_bound_partial",
    "Mqtt.Props.C14_tight",
    "Mqtt.Props.C14_violated_rate"
   ],
   "note": "Proved for every rate up to 18446744073 tokens/s, every clock and call sequence. Above that rate the interval bound is false (proved by a witness). The bound with no extra token is false as well (C14_tight)."
  },
  {
   "property": "C15",
   "status": "partial",
   "theorems": [
    "Mqtt.Props.C15_no_drift_partial",
    "Mqtt.Props.C15_range",
    "Mqtt.Props.C15_violated"
   ],
   "note": "Refinement to an exact bucket for every call sequence; every 64-bit clock when the rate is below 10^9, and rates up to 18446744073 while seconds times rate fit 64 bits. False for larger products (witness)."
  },
  {
   "property": "C16",
   "status": "partial",
   "theorems": [
    "Mqtt.Props.C16_wait_partial",
    "Mqtt.Props.C16_violated_backwards"
   ],
   "note": "Sufficient and minimal for every reachable state, rates up to 18446744073, waits within 64 bits and a clock not behind the last call; the assertions never fail. With a clock that went backwards the wait is too short (witness)."
  },
  {
   "property": "C13",
   "status": "proved",
   "theorems": [
    "Mqtt.Props.C13_dispatch",
    "Mqtt.Props.C13_lookup",
    "Mqtt.Props.C13_user_data"
   ],
   "note": "Every history of adding legal filters and removing any filter; no abort; dispatch, lookups, listing, and user data cleanup. C13_wildcard_topic shows why topics with a wildcard level are excluded."
  },
  {
   "property": "C17",
   "status": "proved",
   "theorems": [
    "Mqtt.Props.C17_transparent"
   ],
   "note": "Every policy, every history of connections and publishes with a topic (empty topics are rejected at submission). Maximum below 65536 because the field is 16 bits. That a publish which is resolved but then fails to encode ends the connection is a matter of the client, see C26/C27."
  },
  {
   "property": "C18",
   "status": "proved",
   "theorems": [
    "Mqtt.Props.C18_inbound"
   ],
   "note": "Every history of resets and registrations."
  },
  {
   "property": "C19",
   "status": "proved",
   "theorems": [
    "Mqtt.Props.C19_encode",
    "Mqtt.Props.C19_refused",
    "Mqtt.Props.C19_roundtrip",
    "Mqtt.Props.C19_reader"
   ],
   "note": "Every value and every byte string; the reader's answer is characterised on every input, so every strict prefix asks for more data."
  },
  {
   "property": "C20",
   "status": "proved",
   "theorems": [
    "Mqtt.Props.C20_one_buffer",
    "Mqtt.Props.C20_same_bytes",
    "Mqtt.Props.C20_terminates"
   ],
   "note": "Every encoder reachable from an empty one and every sequence of buffers, also partly filled ones."
  },
  {
   "property": "C21",
   "status": "proved",
   "theorems": [
    "Mqtt.Props.C21_lengths",
    "Mqtt.Props.C22_meaning",
    "Mqtt.Props.C21_identifier_needed"
   ],
   "note": "Every view within the field ranges of Spec/View5 that the encoder accepts. Property lengths: the bytes parse (C22_meaning), which requires each property section to have exactly the announced length. C21_identifier_needed shows why packet identifier and QoS must agree."
  },
  {
   "property": "C22",
   "status": "partial",
   "theorems": [
    "Mqtt.Props.C22_meaning",
    "Mqtt.Props.C22_sent",
    "Mqtt.Props.C56_publish_on_wire",
    "Mqtt.Props.C22_violated_username"
   ],
   "note": "Every view within the field ranges of Spec/View5, which validation ensures (C56_*_fits); the reader is an independent MQTT 5 grammar. An accepted CONNECT with an empty user name is stored without user name (C22_violated_username), before it gets here."
  },
  {
   "property": "C39",
   "status": "partial",
   "theorems": [
    "Mqtt.Props.C39_shared_exact",
    "Mqtt.Props.C39_shared_partial",
    "Mqtt.Props.C39_shared_filter_partial",
    "Mqtt.Props.C39_topic_limits",
    "Mqtt.Props.C39_filter_limits",
    "Mqtt.Props.C39_violated"
   ],
   "note": "False as stated: `$share` is matched without regard to case, so `$SHARE/g/a` (an ordinary filter in MQTT 5) is treated as shared (C39_violated). Exact characterisation for every byte string proved; agreement with MQTT 5 proved for filters whose first level is not another capitalisation of $share. The IoT Core limits are proved exactly."
  },
  {
   "property": "C56",
   "status": "partial",
   "theorems": [
    "Mqtt.Props.C56_publish",
    "Mqtt.Props.C56_subscribe_exact",
    "Mqtt.Props.C56_subscribe_partial",
    "Mqtt.Props.C56_unsubscribe",
    "Mqtt.Props.C56_disconnect_exact",
    "Mqtt.Props.C56_disconnect_partial",
    "Mqtt.Props.C56_connect",
    "Mqtt.Props.C56_publish_fits",
    "Mqtt.Props.C56_subscribe_fits",
    "Mqtt.Props.C56_unsubscribe_fits",
    "Mqtt.Props.C56_disconnect_fits",
    "Mqtt.Props.C56_connect_fits",
    "Mqtt.Props.C56_publish_on_wire",
    "Mqtt.Props.C56_violated_identifier",
    "Mqtt.Props.C56_violated_reason"
   ],
   "note": "Proved for publish, unsubscribe and connect. False for subscribe (subscription identifier 0 is accepted) and for disconnect (reason codes reserved to servers are accepted); both are characterised exactly. Accepted options lie in the ranges assumed by C21 and C22."
  },
  {
   "property": "C57",
   "status": "partial",
   "theorems": [
    "Mqtt.Props.C57_kept",
    "Mqtt.Props.C57_connect_partial",
    "Mqtt.Props.C57_violated"
   ],
   "note": "False as stated: when the user name with metrics would exceed 65535 bytes, the size computation passes a NULL buffer to aws_byte_buf_clean_up (C57_violated). C57_connect_partial says exactly when that happens; in all other cases the text kept and added is proved (C57_kept, metrics without the separators ? & ; =)."
  },
  {
   "property": "C23",
   "status": "proved",
   "theorems": [
    "Mqtt.Props.V5.C23_packet",
    "Mqtt.Props.V5.C23_stream"
   ],
   "note": "Every byte string the independent MQTT 5 grammar of Spec/Server5 reads as a server packet with the properties the standard allows; in any chunks; topic aliases resolved."
  },
  {
   "property": "C24",
   "status": "proved",
   "theorems": [
    "Mqtt.Props.V5.C24_chunking_independent",
    "Mqtt.Props.V5.C24_same_stream_same_result",
    "Mqtt.Props.V5.C24_error_is_final",
    "Mqtt.Props.V5.C24_error_sticks",
    "Mqtt.Props.V5.C24_reset"
   ],
   "note": "Every stream, chunking and receiver."
  },
  {
   "property": "C25",
   "status": "partial",
   "theorems": [
    "Mqtt.Props.V5.C25_packet_partial",
    "Mqtt.Props.V5.C25_stream_partial",
    "Mqtt.Props.V5.C25_acks_partial",
    "Mqtt.Props.V5.C25_properties",
    "Mqtt.Props.V5.C25_violated_flags",
    "Mqtt.Props.V5.C25_violated_length",
    "Mqtt.Props.V5.C25_violated_qos"
   ],
   "note": "False as stated: flags and property length of SUBACK and UNSUBACK are not checked, and PUBLISH with QoS 3 is delivered. Proved for everything else the grammar rejects."
  },
  {
   "property": "C36",
   "status": "partial",
   "theorems": [
    "Mqtt.Props.Reconnect.C36_exact_partial",
    "Mqtt.Props.Reconnect.C36_jitter_partial",
    "Mqtt.Props.Reconnect.C36_jitter_reaches",
    "Mqtt.Props.Reconnect.C36_reset",
    "Mqtt.Props.Reconnect.C36_counts",
    "Mqtt.Props.Reconnect.C36_scheduled",
    "Mqtt.Props.Reconnect.C36_defaults",
    "Mqtt.Props.Reconnect.C36_exact_311_partial",
    "Mqtt.Props.Reconnect.C36_scheduled_311_partial",
    "Mqtt.Props.Reconnect.C36_violated_decorrelated",
    "Mqtt.Props.Reconnect.C36_violated_cap",
    "Mqtt.Props.Reconnect.C36_violated_overflow_311",
    "Mqtt.Props.Reconnect.C36_violated_bounds_311"
   ],
   "note": "Both clients, every history of connections: exact delay without jitter, upper bound for every random draw with jitter, reset after a stable connection, exact schedule time. Missing, with witnesses: decorrelated jitter after the 3.1.1 adapter reset the connection, a maximum above 2^63 ms, and for 3.1.1 a minimum above the maximum or delays whose end cannot be represented in 64 bits (the addition wraps)."
  },
  {
   "property": "C38",
   "status": "partial",
   "theorems": [
    "Mqtt.Props.V5.C38_negotiated_partial",
    "Mqtt.Props.V5.C38_requested",
    "Mqtt.Props.V5.C38_client_id",
    "Mqtt.Props.V5.C38_violated_client_id"
   ],
   "note": "Every setting is exactly the agreed one for every CONNECT, CONNACK and previous state, and the client id presented is the configured one or the first assigned. Missing: an assigned id for a client that sent one is ignored (witness)."
  },
  {
   "property": "C40",
   "status": "proved",
   "theorems": [
    "Mqtt.Props.Callbacks5.C40_lifecycle",
    "Mqtt.Props.Callbacks5.C40_publish",
    "Mqtt.Props.Callbacks5.C40_attached",
    "Mqtt.Props.Callbacks5.C40_terminated",
    "Mqtt.Props.Callbacks5.C40_every_listener"
   ],
   "note": "For every history of listener creation, acquire, release and event loop tasks."
  },
  {
   "property": "C27",
   "status": "partial",
   "theorems": [
    "Mqtt.Props.C27_partial",
    "Mqtt.Props.C27_at_most_once",
    "Mqtt.Props.C27_encodable",
    "Mqtt.Props.C27_terminated",
    "Mqtt.Props.C27_violated"
   ],
   "note": "Every history of the client model. At most once always holds, and an operation is completed, held or dropped, exactly one of the three; at termination nothing is held. False in one case: an operation that cannot be set up for encoding after validation (topic alias above the server's maximum) is dropped without completion (witness)."
  },
  {
   "property": "C29",
   "status": "partial",
   "theorems": [
    "Mqtt.Props.C29_nonzero",
    "Mqtt.Props.C29_partial",
    "Mqtt.Props.C29_fresh_partial",
    "Mqtt.Props.C29_violated"
   ],
   "note": "Every history. Packet ids in flight are never 0; they are distinct until operations have been set up for sending 65535 times, and on every connection on which nothing is resent with an id from an earlier connection. False in the remaining case (witness: the counter comes round while a publish is resent)."
  },
  {
   "property": "C34",
   "status": "partial",
   "theorems": [
    "Mqtt.Props.C34_partial",
    "Mqtt.Props.C34_range",
    "Mqtt.Props.C34_quiet",
    "Mqtt.Props.C34_violated_size",
    "Mqtt.Props.C34_violated_count"
   ],
   "note": "Every history: the four numbers are exactly count and size of submitted and not completed operations and of those sent and unacknowledged, with sizes taken without packet id and without operations too large to be encoded; they never go below zero. Both exceptions are witnessed as violations."
  },
  {
   "property": "C30",
   "status": "partial",
   "theorems": [
    "Mqtt.Props.C30_partial",
    "Mqtt.Props.C30_bound_partial",
    "Mqtt.Props.C30_flow_partial",
    "Mqtt.Props.C30_violated_abort",
    "Mqtt.Props.C30_violated_window"
   ],
   "note": "Every history. Unacknowledged QoS 1 publishes never exceed the receive maximum while the server acknowledges each id in flight at most once; whatever the server does, at most the receive maximum plus one per PUBACK are sent on a connection. The abort happens only if an operation failed the check against the negotiated settings. Both exceptions are witnessed."
  },
  {
   "property": "C55",
   "status": "partial",
   "theorems": [
    "Mqtt.Props.C55_partial",
    "Mqtt.Props.C55_violated_puback",
    "Mqtt.Props.C55_violated_suback"
   ],
   "note": "False as stated (two witnesses): the operation is looked up by packet id only. Proved for every history: an acknowledgement only completes an operation waiting for one, with the same packet id, and a SUBACK or UNSUBACK only one with as many filters as it has reason codes."
  },
  {
   "property": "C58",
   "status": "partial",
   "theorems": [
    "Mqtt.Props.C58_partial",
    "Mqtt.Props.C58_safe_partial",
    "Mqtt.Props.C58_disconnect",
    "Mqtt.Props.C58_violated_disconnect",
    "Mqtt.Props.C30_violated_abort",
    "Mqtt.Props.C55_violated_suback"
   ],
   "note": "Every history: a step faults only for one of the causes listed in Cause, each witnessed as reachable; all other fatal asserts hold."
  },
  {
   "property": "C31",
   "status": "proved",
   "theorems": [
    "Mqtt.Props.C31_disconnect",
    "Mqtt.Props.C31_only",
    "Mqtt.Props.C31_order",
    "Mqtt.Props.C31_submit",
    "Mqtt.Props.C31_submit_connected",
    "Mqtt.Props.C31_reconnect"
   ],
   "note": "Every reachable state, behaviour and error. A QoS 1 publish that waits for its PUBACK is kept by every behaviour until the server says there is no session, as documented (mqtt5_client.h:185-215). Operations lost by C27's exception are excluded."
  },
  {
   "property": "C33",
   "status": "partial",
   "theorems": [
    "Mqtt.Props.C33_partial",
    "Mqtt.Props.C33_order_partial",
    "Mqtt.Props.C33_stopped",
    "Mqtt.Props.C33_violated"
   ],
   "note": "Every history. Proved unless the user starts the client again while a stopped connection attempt is under way; then a success can follow a failure without a new attempt event (witness)."
  },
  {
   "property": "C35",
   "status": "partial",
   "theorems": [
    "Mqtt.Props.C35_ping",
    "Mqtt.Props.C35_timeout_partial",
    "Mqtt.Props.C35_closes",
    "Mqtt.Props.C35_answered",
    "Mqtt.Props.C35_not_early",
    "Mqtt.Props.C35_violated_extended",
    "Mqtt.Props.C35_violated_blocked"
   ],
   "note": "Every history with clock readings, up to the lateness of the event loop. PINGREQ packets are queued in time; a missing answer to the PINGREQ written last closes the connection in time; an answer in time always prevents that. False as stated (witnesses): a later PINGREQ moves the deadline of an earlier one, and with a write that never completes PINGREQ packets stay in the queue, so that the client never notices."
  },
  {
   "property": "C32",
   "status": "partial",
   "theorems": [
    "Mqtt.Props.C32_stop",
    "Mqtt.Props.C32_partial",
    "Mqtt.Props.C32_scheduled",
    "Mqtt.Props.C32_behind",
    "Mqtt.Props.C32_violated"
   ],
   "note": "Once stop() has queued its DISCONNECT, it is encoded within a bounded number of service task runs that find the channel ready (C32_partial), and the service task is scheduled while it is next (C32_scheduled), for all histories in which no PUBACK is queued meanwhile. The full claim is false: a QoS 1 PUBLISH arriving before the service task runs has its PUBACK queued before the DISCONNECT; then neither is ever written and the service task is not scheduled (C32_violated, C32_behind for all continuations)."
  },
  {
   "property": "C37",
   "status": "partial",
   "theorems": [
    "Mqtt.Props.C37_sent",
    "Mqtt.Props.C37_send_once",
    "Mqtt.Props.C37_invoked",
    "Mqtt.Props.C37_at_most_one",
    "Mqtt.Props.C37_automatic_partial",
    "Mqtt.Props.C37_taken",
    "Mqtt.Props.C37_violated_repeated"
   ],
   "note": "All of it except one case: every PUBACK sent was queued on the same connection behind its cause, each is sent at most once, each control is accepted at most once and only on the connection of its publish, so at most one PUBACK is sent per control. The automatic PUBACK is proved except for a publish that repeats, on the same connection, a packet identifier whose acknowledgement the user holds; there none is queued, with a witness."
  },
  {
   "property": "C28",
   "status": "proved",
   "theorems": [
    "Mqtt.Props.C28_numbers",
    "Mqtt.Props.C28_held",
    "Mqtt.Props.C28_connection",
    "Mqtt.Props.C28_first",
    "Mqtt.Props.C28_again",
    "Mqtt.Props.C28_fresh",
    "Mqtt.Props.C28_resent_first",
    "Mqtt.Props.C28_resume"
   ],
   "note": "For every history of the model of the MQTT5 client. The order of submission is the order of operation numbers (C28_numbers). C28_resent_first holds whether or not the server has kept the session."
  },
  {
   "property": "C26",
   "status": "partial",
   "theorems": [
    "Mqtt.Props.C26_partial",
    "Mqtt.Props.C26_other",
    "Mqtt.Props.C26_first",
    "Mqtt.Props.C26_any",
    "Mqtt.Props.C26_maximum",
    "Mqtt.Props.C26_violated_packet_id",
    "Mqtt.Props.C26_violated_alias"
   ],
   "note": "Every packet started while a connection is up is within the server's maximum, except a QoS 1 publish sent for the first time and publishes with automatic (LRU) topic aliases; these exceed it by at most 3 and 7 bytes and the negation is proved for both. The bytes are those the encoder makes of the packet."
  },
  {
   "property": "C41",
   "status": "partial",
   "theorems": [
    "Mqtt.Props.C41_partial",
    "Mqtt.Props.C41_depended_partial",
    "Mqtt.Props.C41_unsubscribing_partial",
    "Mqtt.Props.C41_always",
    "Mqtt.Props.C41_violated_shutdown"
   ],
   "note": "For every history of calls of the subscription manager until clean_up, every result of the protocol adapter and every iteration order of its hash tables. clean_up deliberately sends an unsubscribe after a subscribe that is not completed, for filters operations depend on (witness); after it at most one of each kind is outstanding."
  },
  {
   "property": "C42",
   "status": "proved",
   "theorems": [
    "Mqtt.Props.C42",
    "Mqtt.Props.C42_records"
   ],
   "note": "For every history of calls of the subscription manager until clean_up, which deletes all records. A subscription is held if the server has it or a call for it is not completed."
  },
  {
   "property": "C43",
   "status": "proved",
   "theorems": [
    "Mqtt.Props.C43",
    "Mqtt.Props.C43_run"
   ],
   "note": "For every history of calls in which only what was issued completes and nothing is called after clean_up (the client guarantees both: it ignores adapter events and releases once it is shutting down)."
  },
  {
   "property": "C44",
   "status": "partial",
   "theorems": [
    "Mqtt.Props.C44_partial",
    "Mqtt.Props.C44_atMost",
    "Mqtt.Props.C44_atLeast",
    "Mqtt.Props.C44_exactly_partial",
    "Mqtt.Props.C44_freed",
    "Mqtt.Props.C44_submitted",
    "Mqtt.Props.C44_timeout",
    "Mqtt.Props.C44_scheduled",
    "Mqtt.Props.C44_violated"
   ],
   "note": "Every history of the model. Every request that was accepted has been completed when it is freed and when the client terminates, and at its timeout by a service run that is scheduled in time. At most once is proved if no service run finds an expired request in the queue; otherwise a request can be completed twice, never more often (witness)."
  },
  {
   "property": "C59",
   "status": "proved",
   "theorems": [
    "Mqtt.Props.C59",
    "Mqtt.Props.C59_tables",
    "Mqtt.Props.C59_once"
   ],
   "note": "For every history in which the user does not use a released stream or client, and the protocol adapter completes only what was issued and is silent after it has terminated."
  },
  {
   "property": "C45",
   "status": "partial",
   "theorems": [
    "Mqtt.Props.C45_partial",
    "Mqtt.Props.C45_ready_partial",
    "Mqtt.Props.C45_violated",
    "Mqtt.Props.C45_violated_repeated"
   ],
   "note": "Every history of the model. Proved for requests whose filters are distinct and were all not established when acquired, and for requests whose filters were all established then. In between, and for a filter listed twice, the request is never published (witnesses)."
  },
  {
   "property": "C46",
   "status": "partial",
   "theorems": [
    "Mqtt.Props.C46_only",
    "Mqtt.Props.C46_response_partial",
    "Mqtt.Props.C46_completes_partial",
    "Mqtt.Props.C46_stream_partial",
    "Mqtt.Props.C46_stream_sound",
    "Mqtt.Props.C46_violated_topic",
    "Mqtt.Props.C46_violated_path",
    "Mqtt.Props.C46_violated_token",
    "Mqtt.Props.C46_violated_parent"
   ],
   "note": "Every history of the model and every publish. A response completes only a request whose token it carries at a token path given for its topic by some request; the topic may be another request's (witness). A publish on a response topic with the token completes the request if all requests give the same token path for that topic (witness otherwise, and for a topic without path). Streams receive exactly the publishes matching their filter, except the parent level of `#` (witness)."
  },
  {
   "property": "C47",
   "status": "proved",
   "theorems": [
    "Mqtt.Props.C47_once",
    "Mqtt.Props.C47_accepted",
    "Mqtt.Props.C47_held",
    "Mqtt.Props.C47_destroyed"
   ],
   "note": "Every history of the model of the 3.1.1 connection, up to the first memory error; C53_fault says that those need an acknowledgement that names a request not sent on the channel or a SUBACK for another kind of request."
  },
  {
   "property": "C48",
   "status": "proved",
   "theorems": [
    "Mqtt.Props.C48_range",
    "Mqtt.Props.C48_unique",
    "Mqtt.Props.C48_full"
   ],
   "note": "Every history of the model of the 3.1.1 connection. Packet ids of requests that are being cancelled at the end of a clean session (callback invoked, not yet removed) also count as in use."
  },
  {
   "property": "C51",
   "status": "partial",
   "theorems": [
    "Mqtt.Props.C51_partial",
    "Mqtt.Props.C51_partial_next",
    "Mqtt.Props.C51_violated",
    "Mqtt.Props.C51_violated_connack"
   ],
   "note": "Every history in which CONNECT can be sent on each channel and an established connection gets no second CONNACK; both exceptions lead to a second callback (witnesses)."
  },
  {
   "property": "C52",
   "status": "partial",
   "theorems": [
    "Mqtt.Props.C52_partial",
    "Mqtt.Props.C52_partial_history",
    "Mqtt.Props.C52_violated",
    "Mqtt.Props.C52_violated_pingresp",
    "Mqtt.Props.C52_reconnect_violated",
    "Mqtt.Props.C52_pingresp_violated"
   ],
   "note": "Proved for connections established by connect() and all packets but PINGRESP. On reconnects packets are acted upon before CONNACK, and PINGRESP always is (witnesses; C52_reconnect_violated and C52_pingresp_violated: in every such state)."
  },
  {
   "property": "C53",
   "status": "partial",
   "theorems": [
    "Mqtt.Props.C53_partial",
    "Mqtt.Props.C53_only",
    "Mqtt.Props.C53_fault",
    "Mqtt.Props.C53_violated_kind",
    "Mqtt.Props.C53_violated_unsent",
    "Mqtt.Props.C53_violated_memory",
    "Mqtt.Props.C53_violated_suback"
   ],
   "note": "Every history. Acknowledgements for requests that were sent and are of the right kind do exactly what they should; any packet completes at most the request with its packet id; the only memory errors are due to acknowledgements for requests not sent on the channel and SUBACKs for other kinds. All these cases are witnessed."
  },
  {
   "property": "C60",
   "status": "proved",
   "theorems": [
    "Mqtt.Props.C60_dup",
    "Mqtt.Props.C60_once"
   ],
   "note": "Every history. Sent means handed to the channel; a QoS 1 publish that the channel refused counts as sent (it stays outstanding and is repeated with DUP)."
  },
  {
   "property": "C49",
   "status": "partial",
   "theorems": [
    "Mqtt.Props.C49_numbered",
    "Mqtt.Props.C49_partial",
    "Mqtt.Props.C49_partial_sorted",
    "Mqtt.Props.C49_violated"
   ],
   "note": "Every history in which outgoing tasks are run in order, none is cancelled while another request waits for an acknowledgement, and the server sends one CONNACK per channel (InOrder). Otherwise the order can change (witness: one request sent, one queued, connection lost)."
  },
  {
   "property": "C50",
   "status": "partial",
   "theorems": [
    "Mqtt.Props.C50_incomplete",
    "Mqtt.Props.C50_partial",
    "Mqtt.Props.C50_partial_unacked",
    "Mqtt.Props.C50_partial_uncancelled",
    "Mqtt.Props.C50_violated",
    "Mqtt.Props.C50_violated_unacked"
   ],
   "note": "In every history the incomplete counters are those of outstanding operations plus those cancelled for a clean session, which are never subtracted (witness). Unacked counters are exact unless the task of a request that was sent before is cancelled (witness). Counters are integers, the real ones are these modulo 2^64."
  },
  {
   "property": "C61",
   "status": "proved",
   "theorems": [
    "Mqtt.Props.C61_ready",
    "Mqtt.Props.C61_once"
   ],
   "note": "Every history. The subscription may have been lost again between the acknowledgement and the publish; the events telling so are handled in order."
  },
  {
   "property": "C62",
   "status": "proved",
   "theorems": [
    "Mqtt.Props.C62_refused",
    "Mqtt.Props.C62_once",
    "Mqtt.Props.C62_sent",
    "Mqtt.Props.C62_waits"
   ],
   "note": "Every history without a fault (see C52 for the faults)."
  },
  {
   "property": "C63",
   "status": "partial",
   "theorems": [
    "Mqtt.Props.C63_at_most_once",
    "Mqtt.Props.C63_not_lost_partial",
    "Mqtt.Props.C63_task",
    "Mqtt.Props.C63_event",
    "Mqtt.Props.C63_never",
    "Mqtt.Props.C63_violated_stopped",
    "Mqtt.Props.C63_violated_released"
   ],
   "note": "At most once: all histories. Not lost: histories where the client is started and stopped through the adapter only, until the adapter is released; otherwise negations. That the client's attempt ends at all is not stated."
  },
  {
   "property": "C64",
   "status": "partial",
   "theorems": [
    "Mqtt.Props.C64_at_most_once",
    "Mqtt.Props.C64_not_lost",
    "Mqtt.Props.C64_task",
    "Mqtt.Props.C64_event",
    "Mqtt.Props.C64_connect",
    "Mqtt.Props.C64_waits_partial",
    "Mqtt.Props.C64_violated_early",
    "Mqtt.Props.C64_violated_released"
   ],
   "note": "At most once, and stored or queued until answered: all histories. That the client is on its way to stop while the call waits: when only the adapter drives it and an attempt has begun; negations otherwise."
  },
  {
   "property": "C65",
   "status": "partial",
   "theorems": [
    "Mqtt.Props.C65_success_partial",
    "Mqtt.Props.C65_reset",
    "Mqtt.Props.C65_violated_failure"
   ],
   "note": "Success: all histories in which no failure comes with error code 0. Failures may be those of an earlier attempt."
  },
  {
   "property": "C66",
   "status": "proved",
   "theorems": [
    "Mqtt.Props.C66_accepted",
    "Mqtt.Props.C66_distinct",
    "Mqtt.Props.C66_refused"
   ],
   "note": "All histories."
  },
  {
   "property": "C67",
   "status": "proved",
   "theorems": [
    "Mqtt.Props.C67_at_most_once",
    "Mqtt.Props.C67_told",
    "Mqtt.Props.C67_not_lost",
    "Mqtt.Props.C67_terminated",
    "Mqtt.Props.C67_last",
    "Mqtt.Props.C67_asked"
   ],
   "note": "All histories."
  },
  {
   "property": "C68",
   "status": "partial",
   "theorems": [
    "Mqtt.Props.C68_held",
    "Mqtt.Props.C68_once",
    "Mqtt.Props.C68_ends",
    "Mqtt.Props.C68_fault_partial",
    "Mqtt.Props.C68_violated_socket",
    "Mqtt.Props.C68_violated_abort"
   ],
   "note": "Lifetime: all histories. Faults: all histories, with two causes that remain and are shown to occur."
  },
  {
   "property": "C69",
   "status": "partial",
   "theorems": [
    "Mqtt.Props.C69_quiet",
    "Mqtt.Props.C69_stopped_partial",
    "Mqtt.Props.C69_violated",
    "Mqtt.Props.C69_unstopped_violated"
   ],
   "note": "Silence: all histories. The client stays stopped when the adapter was connected or connecting; after a failed connect() it does not stop (C69_unstopped_violated: whenever the adapter is neither connected nor connecting)."
  },
  {
   "property": "C70",
   "status": "partial",
   "theorems": [
    "Mqtt.Props.C70_publish",
    "Mqtt.Props.C70_subscribe",
    "Mqtt.Props.C70_subscribe_multi",
    "Mqtt.Props.C70_violated_unsubscribe"
   ],
   "note": "Publish and subscribe: all histories. Unsubscribe ignores the reason codes."
  },
  {
   "property": "C71",
   "status": "partial",
   "theorems": [
    "Mqtt.Props.C71_set",
    "Mqtt.Props.C71_dispatch",
    "Mqtt.Props.C71_arrives",
    "Mqtt.Props.C71_resubscribe",
    "Mqtt.Props.C71_alive_partial",
    "Mqtt.Props.C71_cleaned_partial",
    "Mqtt.Props.C71_violated_used",
    "Mqtt.Props.C71_violated_twice"
   ],
   "note": "Handlers and subscriptions: all histories, topics without wildcard characters. User data: histories without resubscribe_existing_topics(), which cleans up user data that stays in use."
  },
  {
   "property": "C72",
   "status": "partial",
   "theorems": [
    "Mqtt.Props.C72_partial",
    "Mqtt.Props.C72_state_partial",
    "Mqtt.Props.C72_next_partial",
    "Mqtt.Props.C72_violated",
    "Mqtt.Props.C72_violated_unsent"
   ],
   "note": "Histories without the two cases in which on_connection_complete is invoked once more (see C51)."
  },
  {
   "property": "C73",
   "status": "partial",
   "theorems": [
    "Mqtt.Props.C73_safe",
    "Mqtt.Props.C73_subscription",
    "Mqtt.Props.C73_publish",
    "Mqtt.Props.C73_unasked",
    "Mqtt.Props.C73_right",
    "Mqtt.Props.C73_quiet",
    "Mqtt.Props.C73_ends",
    "Mqtt.Props.C73_passed",
    "Mqtt.Props.C73_freed",
    "Mqtt.Props.C73_violated_thread"
   ],
   "note": "All but the clause on the event loop is proved; that clause fails for the 3.1.1 client."
  },
  {
   "property": "C74",
   "status": "partial",
   "theorems": [
    "Mqtt.Props.C74_early",
    "Mqtt.Props.C74_late_partial",
    "Mqtt.Props.C74_expires_partial",
    "Mqtt.Props.C74_violated"
   ],
   "note": "The lower bound is proved. The upper bound and the completion are proved unless two operations in flight have had the same packet id (not before 65535 operations have been set up for sending), where the claim fails."
  },
  {
   "property": "C75",
   "status": "proved",
   "theorems": [
    "Mqtt.Props.C75_waits",
    "Mqtt.Props.C75_late",
    "Mqtt.Props.C75_closes",
    "Mqtt.Props.C75_early"
   ],
   "note": "The default of mqtt5_client.c:1250 (10 seconds) is dead code, since option storage has already put in 20 seconds."
  },
  {
   "property": "C76",
   "status": "proved",
   "theorems": [
    "Mqtt.Props.C76_accepts",
    "Mqtt.Props.C76_defaults",
    "Mqtt.Props.C76_connect",
    "Mqtt.Props.C76_named",
    "Mqtt.Props.C76_session"
   ],
   "note": "SDK metrics in the user name are C57; the client model has none. C76_session speaks of every CONNECT started after the client was seen waiting for a CONNACK and before the connection is gone."
  },
  {
   "property": "C77",
   "status": "proved",
   "theorems": [
    "Mqtt.Props.C77_stream",
    "Mqtt.Props.C77_read",
    "Mqtt.Props.C77_whole",
    "Mqtt.Props.C77_numbers",
    "Mqtt.Props.C77_inputs",
    "Mqtt.Props.C77_read_inputs",
    "Mqtt.Props.C77_given",
    "Mqtt.Props.C77_calls",
    "Mqtt.Props.C77_read_calls"
   ],
   "note": "C77_read and C77_whole ask that the numbers of packets begun are in the range of their C types, and CONNECT, DISCONNECT and PUBACK within the limits of MQTT 5 (`Representable`). C77_numbers derives this from the ranges of the C types of what the client is given (`Typed`): options, PUBLISH packets submitted, packet identifiers received; C77_given derives this from the calls of the user alone, whatever the server sends: C types of options and of PUBLISH packets submitted, and DISCONNECT packets that validation accepted. The channel below delivers what it is handed."
  },
  {
   "property": "C78",
   "status": "partial",
   "theorems": [
    "Mqtt.Props.C78_connect",
    "Mqtt.Props.C78_disconnect",
    "Mqtt.Props.C78_accepted",
    "Mqtt.Props.C78_first_partial",
    "Mqtt.Props.C78_violated_stop",
    "Mqtt.Props.C78_violated_connack"
   ],
   "note": "That the first packet is CONNECT is false: C78_violated_stop (stop with a DISCONNECT before the service task has taken the CONNECT from the queue), C78_violated_connack (a CONNACK that nobody asked for). C78_first_partial says these are the only ways."
  },
  {
   "property": "C79",
   "status": "partial",
   "theorems": [
    "Mqtt.Props.C79_sent",
    "Mqtt.Props.C79_lru",
    "Mqtt.Props.C79_ignored",
    "Mqtt.Props.C79_inbound_partial",
    "Mqtt.Props.C79_numbers",
    "Mqtt.Props.C79_sent_calls",
    "Mqtt.Props.C79_lru_calls",
    "Mqtt.Props.C79_ignored_calls",
    "Mqtt.Props.C79_violated_size",
    "Mqtt.Props.C79_violated_ignored",
    "Mqtt.Props.C79_violated_inbound"
   ],
   "note": "Three sentences of the documentation are false: C79_violated_size (outbound_alias_cache_max_size is never used, so C79_lru has the server's maximum alone), C79_violated_ignored (with manual aliases and a server that allows none, a PUBLISH with an alias closes the connection), C79_violated_inbound (disabled inbound aliases are offered if the CONNECT options have a topic_alias_maximum). C79_sent, C79_lru and C79_ignored ask that packets are representable (numbers in the range of their C types); C79_sent_calls, C79_lru_calls and C79_ignored_calls derive this from the C types of the options and calls of the user."
  },
  {
   "property": "C80",
   "status": "partial",
   "theorems": [
    "Mqtt.Props.C80_options",
    "Mqtt.Props.C80_alive",
    "Mqtt.Props.C80_skipped",
    "Mqtt.Props.C80_packets_partial",
    "Mqtt.Props.C80_sparse",
    "Mqtt.Props.C80_answered",
    "Mqtt.Props.C80_connack",
    "Mqtt.Props.C80_justified",
    "Mqtt.Props.C80_violated_first",
    "Mqtt.Props.C80_violated_full",
    "Mqtt.Props.C80_violated_connack"
   ],
   "note": "C80_packets_partial: the first packet after CONNECT may take the ping timeout longer (C80_violated_first: the keep-alive interval is counted from CONNACK), and no ping is sent while all packet ids are in use (C80_violated_full). A second CONNACK schedules the scheduled ping task again (C80_violated_connack). The event loop is prompt."
  },
  {
   "property": "C81",
   "status": "proved",
   "theorems": [
    "Mqtt.Props.C81_publish",
    "Mqtt.Props.C81_subscribe",
    "Mqtt.Props.C81_unsubscribe",
    "Mqtt.Props.C81_disconnect",
    "Mqtt.Props.C81_puback",
    "Mqtt.Props.C81_suback",
    "Mqtt.Props.C81_connack",
    "Mqtt.Props.C81_options",
    "Mqtt.Props.C81_connect",
    "Mqtt.Props.C81_client"
   ],
   "note": "Memory is a map from blocks to bytes; a read outside a block is a distinct outcome (invalid). Sums of lengths do not wrap and allocations succeed. C81_client: a client makes each CONNECT of the options it was created with. Where the size of the user name with metrics cannot be computed the process ends (C57_violated)."
  },
  {
   "property": "C82",
   "status": "partial",
   "theorems": [
    "Mqtt.Props.C82_sent",
    "Mqtt.Props.C82_sent_iff",
    "Mqtt.Props.C82_asked_partial",
    "Mqtt.Props.C82_dial_partial",
    "Mqtt.Props.C82_setters",
    "Mqtt.Props.C82_stable",
    "Mqtt.Props.C82_violated_tls",
    "Mqtt.Props.C82_violated_password",
    "Mqtt.Props.C82_violated_username"
   ],
   "note": "C82_sent is exact for what is sent, with empty strings left out; C82_asked_partial tells when this is what was asked for: an empty password is not sent (C82_violated_password), nor a password with an empty user name (C82_violated_username). C82_dial_partial: TLS cannot be switched off again (C82_violated_tls). CONNECT is sent if its body has at most 16381 bytes (C82_sent_iff). Websockets and proxies are not modelled."
  },
  {
   "property": "C83",
   "status": "partial",
   "theorems": [
    "Mqtt.Props.C83_key",
    "Mqtt.Props.C83_sent",
    "Mqtt.Props.C83_answered",
    "Mqtt.Props.C83_unsubscribe",
    "Mqtt.Props.C83_suback",
    "Mqtt.Props.C83_delivered_partial",
    "Mqtt.Props.C83_resubscribe_partial",
    "Mqtt.Props.C83_resubscribed_partial",
    "Mqtt.Props.C83_violated_shared",
    "Mqtt.Props.C83_violated_unsubscribe",
    "Mqtt.Props.C83_violated_freed",
    "Mqtt.Props.C83_violated_resend"
   ],
   "note": "C83_delivered_partial leaves out `parent/#` for `parent` (C09) and counts `$share/name/filter` and `filter` as the same filter, as the code does; C83_violated_unsubscribe shows that this loses a subscription. C83_resubscribe_partial is for histories without shared subscriptions (C83_violated_shared) and without freed strings in the table (C11). C83_resubscribed_partial is for a packet sent once, with no change of subscriptions until SUBACK; otherwise C83_violated_freed (freed memory is read) and C83_violated_resend (a correct SUBACK closes the connection)."
  },
  {
   "property": "C84",
   "status": "partial",
   "theorems": [
    "Mqtt.Props.C84_once",
    "Mqtt.Props.C84_not_early",
    "Mqtt.Props.C84_after",
    "Mqtt.Props.C84_cleaned_partial",
    "Mqtt.Props.C84_violated",
    "Mqtt.Props.C84_violated_write"
   ],
   "note": "C84_cleaned_partial leaves out topics whose first SUBSCRIBE could not be made when it was due; C84_violated and C84_violated_write show that their cleanup callback may never be called. Shared subscriptions count as their filter, as in C83."
  },
  {
   "property": "C85",
   "status": "partial",
   "theorems": [
    "Mqtt.Props.C85_once",
    "Mqtt.Props.C85_timeout",
    "Mqtt.Props.C85_disabled",
    "Mqtt.Props.C85_due",
    "Mqtt.Props.C85_alone",
    "Mqtt.Props.C85_prompt",
    "Mqtt.Props.C85_fewer",
    "Mqtt.Props.C85_violated_before",
    "Mqtt.Props.C85_violated_options",
    "Mqtt.Props.C85_violated_written"
   ],
   "note": "The theorems are about the timeout that was configured when the operation was submitted, counted from when its packet was handed to the channel. C85_violated_before, C85_violated_options and C85_violated_written show that it is not always the one of the connect() in effect, and that it is not counted from the write to the socket."
  },
  {
   "property": "C86",
   "status": "proved",
   "theorems": [
    "Mqtt.Props.C86_event",
    "Mqtt.Props.C86_called",
    "Mqtt.Props.C86_newest",
    "Mqtt.Props.C86_attached",
    "Mqtt.Props.C86_terminated",
    "Mqtt.Props.C86_ends",
    "Mqtt.Props.C86_drains",
    "Mqtt.Props.C86_conn",
    "Mqtt.Props.C86_gone",
    "Mqtt.Props.C86_valid"
   ],
   "note": "Where the connection calls the callback set manager is not part of this model: an event is a call of one of its on_\u2026 functions, which happen on the event loop while the connection holds a reference of itself. Both tasks are run, not cancelled."
  },
  {
   "property": "C87",
   "status": "partial",
   "theorems": [
    "Mqtt.Props.C87_refused",
    "Mqtt.Props.C87_turn",
    "Mqtt.Props.C87_dial",
    "Mqtt.Props.C87_socket",
    "Mqtt.Props.C87_connect_partial",
    "Mqtt.Props.C87_sends_partial",
    "Mqtt.Props.C87_times_partial",
    "Mqtt.Props.C87_crash_partial",
    "Mqtt.Props.C87_violated_keepAlive",
    "Mqtt.Props.C87_violated_ping",
    "Mqtt.Props.C87_violated_operation",
    "Mqtt.Props.C87_violated_login",
    "Mqtt.Props.C87_violated_metrics",
    "Mqtt.Props.C87_violated_will",
    "Mqtt.Props.C87_violated_crash"
   ],
   "note": "The theorems about CONNECT assume a keep alive other than 0, logins and wills that fit into a CONNECT, and metrics that were not changed after a login they were added to; C87_times_partial assumes an operation timeout of at most 4294966296 ms. The C87_violated theorems show that each of these is needed, that the documented defaults for 0 are not used, and that a long user name with metrics crashes."
  },
  {
   "property": "C88",
   "status": "partial",
   "theorems": [
    "Mqtt.Props.C88_memory",
    "Mqtt.Props.C88_once",
    "Mqtt.Props.C88_early",
    "Mqtt.Props.C88_lives",
    "Mqtt.Props.C88_ends",
    "Mqtt.Props.C88_progress",
    "Mqtt.Props.C88_final",
    "Mqtt.Props.C88_request",
    "Mqtt.Props.C88_revived",
    "Mqtt.Props.C88_zero_partial",
    "Mqtt.Props.C88_violated"
   ],
   "note": "C88_zero_partial assumes that no websocket handshake was begun; C88_revived shows that otherwise the count is acquired again only when a handshake transformation is completed without a reference, and C88_violated that this happens. The rest is proved in full. The order in which the event loop runs tasks (aws-c-common) is assumed."
  },
  {
   "property": "C89",
   "status": "partial",
   "theorems": [
    "Mqtt.Props.C89_goesOn",
    "Mqtt.Props.C89_disconnect",
    "Mqtt.Props.C89_connect",
    "Mqtt.Props.C89_reconnect",
    "Mqtt.Props.C89_destroyed_partial",
    "Mqtt.Props.C89_kept",
    "Mqtt.Props.C89_violated"
   ],
   "note": "C89_goesOn, C89_disconnect, C89_connect and C89_reconnect are proved in full. C89_destroyed_partial is about a connection that is being disconnected when it is released; C89_kept and C89_violated show that one that is established when it is released is never destroyed. That a channel on which no CONNACK comes is shut down is the event `close`."
  },
  {
   "property": "C90",
   "status": "partial",
   "theorems": [
    "Mqtt.Props.C90_cancelled_partial",
    "Mqtt.Props.C90_kept",
    "Mqtt.Props.C90_never",
    "Mqtt.Props.C90_interrupted",
    "Mqtt.Props.C90_violated",
    "Mqtt.Props.C90_violated_clean",
    "Mqtt.Props.C90_violated_task"
   ],
   "note": "C90_cancelled_partial: clean sessions, operations that are not in an outgoing task, and a channel that is set up when the connection is being disconnected. C90_violated: an operation in flight in a persistent session is kept (C90_kept, C90_never: with persistent sessions nothing is ever cancelled); C90_violated_clean: so is one that was accepted while a connection with a clean session was interrupted (C90_interrupted: so is every one, if the reconnect task invokes on_disconnect); C90_violated_task: so is one whose outgoing task is cancelled after the channel was shut down."
  },
  {
   "property": "C91",
   "status": "partial",
   "theorems": [
    "Mqtt.Props.C91_event",
    "Mqtt.Props.C91_same_partial",
    "Mqtt.Props.C91_exact",
    "Mqtt.Props.C91_others",
    "Mqtt.Props.C91_online",
    "Mqtt.Props.C91_violated"
   ],
   "note": "C91_same_partial: histories in which disconnect() is not called while the connection waits to reconnect; C91_exact: exactly those. For all histories: C91_others (all but disconnects) and C91_online. C91_violated: disconnect() while the connection waits to reconnect, of which listeners are not told."
  },
  {
   "property": "C92",
   "status": "proved",
   "theorems": [
    "Mqtt.Props.C92_at_most_once",
    "Mqtt.Props.C92_not_early",
    "Mqtt.Props.C92_answered",
    "Mqtt.Props.C92_offline",
    "Mqtt.Props.C92_told",
    "Mqtt.Props.C92_kept",
    "Mqtt.Props.C92_success",
    "Mqtt.Props.C92_failure_written"
   ],
   "note": "C92_answered: until it is answered the PUBACK is in the hands of the client. C92_offline: answered by the time there is no connection. C92_failure_written is the limit of the failure result: it may be reported for a PUBACK that was handed to the channel."
  },
  {
   "property": "C93",
   "status": "proved",
   "theorems": [
    "Mqtt.Props.C93_course",
    "Mqtt.Props.C93_released",
    "Mqtt.Props.C93_destroyed",
    "Mqtt.Props.C93_alive",
    "Mqtt.Props.C93_transformed",
    "Mqtt.Props.C93_opened",
    "Mqtt.Props.C93_installed"
   ],
   "note": "The user is assumed to keep to the documentation: the completion function of a transformation is called once, with the request given. That it is called at all is not assumed."
  },
  {
   "property": "C94",
   "status": "partial",
   "theorems": [
    "Mqtt.Props.C94_memory_partial",
    "Mqtt.Props.C94_channel_partial",
    "Mqtt.Props.C94_asked_partial",
    "Mqtt.Props.C94_memory_violated",
    "Mqtt.Props.C94_channel_violated"
   ],
   "note": "Violated: C94_memory_violated (the slot is removed between the test and the use), C94_channel_violated (the task is scheduled on the channel of a later connect). Proved for calls during which the channel is not shut down and on_disconnect not invoked; calls on the event loop are one step."
  },
  {
   "property": "C95",
   "status": "partial",
   "theorems": [
    "Mqtt.Props.C95_called",
    "Mqtt.Props.C95_identifier",
    "Mqtt.Props.C95_memory_partial",
    "Mqtt.Props.C95_violated",
    "Mqtt.Props.C95_violated_offline"
   ],
   "note": "Violated: C95_violated (a QoS 0 publish is completed and freed before the call returns), C95_violated_offline (connect() with a clean session cancels it). Proved: a call that touches no freed memory returns its own identifier; it touches none as long as its operation is not complete."
  },
  {
   "property": "C96",
   "status": "partial",
   "theorems": [
    "Mqtt.Props.C96_place",
    "Mqtt.Props.C96_sent",
    "Mqtt.Props.C96_asked",
    "Mqtt.Props.C96_last_partial",
    "Mqtt.Props.C96_violated"
   ],
   "note": "Violated: C96_violated (publish() on another thread schedules its task after the task of disconnect(); PUBLISH follows DISCONNECT). Proved: place, once, sent, only when asked (C96_asked: if no other part shuts the channel down without an error); nothing follows if no operation is between the release of the lock and the scheduling of its task when disconnect() is called."
  }
 ]
}