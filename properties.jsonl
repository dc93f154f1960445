{"id": "C01", "title": "Remaining-length codec is a bijection on the legal range", "statement": "Encoding any remaining length up to 268435455 yields between 1 and 4 bytes, and reading those bytes back (whatever bytes follow) returns the same number and leaves exactly the following bytes unread. The encoder never emits more than the 4 bytes MQTT allows.", "quantifier": "every 32-bit remaining length and every trailing byte string", "why_tests_cant": "Boundaries at 127/128, 16383/16384, ... can be sampled but round-trip with arbitrary suffix for 2^28 values cannot.", "anchors": ["source/fixed_header.c:s_encode_remaining_length", "source/fixed_header.c:aws_mqtt311_decode_remaining_length"]}
{"id": "C02", "title": "Remaining-length decoder is total and never over-reads", "statement": "For any byte string the 3.1.1 remaining-length reader either consumes between 1 and 4 bytes and returns a value below 2^28, or reports an error; four continuation bytes are always an error, and the result depends only on the bytes consumed.", "quantifier": "every byte string", "why_tests_cant": "The input space is all byte strings; tests only sample malformed inputs.", "anchors": ["source/fixed_header.c:aws_mqtt311_decode_remaining_length"]}
{"id": "C03", "title": "MQTT 3.1.1 packets survive encode then decode", "statement": "For every packet that can be built through the packet API with fields inside their wire limits, encoding then decoding gives back the same packet, and the encoded byte count equals the fixed header size plus the announced remaining length.", "quantifier": "every packet of each of the 14 control packet types, every field content and length", "why_tests_cant": "Round trip over unbounded strings/lists of subscriptions and all flag combinations.", "anchors": ["source/packets.c", "source/fixed_header.c:aws_mqtt_fixed_header_encode", "source/fixed_header.c:aws_mqtt_fixed_header_decode"]}
{"id": "C04", "title": "A malformed length prefix inside a 3.1.1 packet is rejected", "statement": "When a two-byte length prefix inside a received packet announces more bytes than the packet contains, decoding fails instead of producing a packet.", "quantifier": "every byte string offered to the packet decoders", "why_tests_cant": "Adversarial inputs; a fuzz run that finds no crash cannot see a wrongly accepted packet.", "anchors": ["source/packets.c:s_decode_buffer", "source/packets.c:aws_mqtt_packet_publish_decode"]}
{"id": "C05", "title": "A 3.1.1 packet that was encoded successfully has a truthful header", "statement": "If an encode call reports success, the bytes written are exactly the header followed by as many bytes as the remaining length announces, even when a topic filter is longer than 65535 bytes.", "quantifier": "every SUBSCRIBE/UNSUBSCRIBE/CONNECT/PUBLISH contents including over-long strings", "why_tests_cant": "Requires oversized fields in arbitrary positions.", "anchors": ["source/packets.c:aws_mqtt_packet_subscribe_encode", "source/packets.c:aws_mqtt_packet_unsubscribe_encode", "source/packets.c:s_encode_buffer"]}
{"id": "C06", "title": "3.1.1 streaming decode does not depend on how the network chunks data", "statement": "Feeding a byte stream to the incoming decoder in any sequence of chunks produces the same packets handed to the packet handlers, in the same order, and the same success/failure outcome as feeding it in one piece.", "quantifier": "every byte stream and every partition into chunks (including empty ones)", "why_tests_cant": "The number of partitions is exponential and streams unbounded.", "anchors": ["source/mqtt311_decoder.c:aws_mqtt311_decoder_on_bytes_received"]}
{"id": "C07", "title": "3.1.1 streaming decode delivers exactly the packets that were sent", "statement": "If the stream is the concatenation of framed packets (with valid remaining lengths), the decoder hands over exactly those packets, byte for byte and in order, keeping only an incomplete tail; after any failure it delivers nothing more until reset.", "quantifier": "every list of framed packets, every incomplete tail, every chunking", "why_tests_cant": "Unbounded histories; needs an invariant on the buffered state.", "anchors": ["source/mqtt311_decoder.c", "source/client_channel_handler.c:s_process_read_message"]}
{"id": "C08", "title": "Topic and topic-filter validity matches the MQTT grammar", "statement": "A topic is accepted iff it is 1..65535 bytes of legal MQTT text (well-formed UTF-8 without control or non-characters) and contains no '+' or '#'; a filter is accepted iff it is 1..65535 bytes of legal MQTT text, every level containing '+' is exactly '+', and '#' appears only as the entire last level.", "quantifier": "every byte string", "why_tests_cant": "All strings; the hand written scanner has state carried between levels.", "anchors": ["source/mqtt.c:s_is_valid_topic", "source/mqtt.c:aws_mqtt_is_valid_topic", "source/mqtt.c:aws_mqtt_is_valid_topic_filter"]}
{"id": "C09", "title": "3.1.1 incoming publish is delivered to exactly the matching subscriptions", "statement": "For any set of current subscriptions and any topic without wildcards, the subscription callbacks invoked are exactly those whose filter matches under MQTT rules ('+' one level, '#' the parent and all remaining levels), each exactly once.", "quantifier": "every history of subscribe/unsubscribe and every topic", "why_tests_cant": "Matching over arbitrary tries, depth and topics.", "anchors": ["source/topic_tree.c:aws_mqtt_topic_tree_publish", "source/topic_tree.c:s_topic_tree_publish_do_recurse"]}
{"id": "C10", "title": "3.1.1 subscription table behaves as a last-writer-wins map", "statement": "After any history of committed subscribe and unsubscribe operations, the set of (filter, handler, QoS) held equals the map obtained by applying them in order; every replaced or removed handler's user data is cleaned up exactly once and no live one is.", "quantifier": "every history of operations and every filter", "why_tests_cant": "History dependent trie surgery (node collapsing on removal).", "anchors": ["source/topic_tree.c:aws_mqtt_topic_tree_insert", "source/topic_tree.c:aws_mqtt_topic_tree_remove", "source/topic_tree.c:s_topic_tree_action_commit"]}
{"id": "C11", "title": "3.1.1 subscription table never references freed topic strings", "statement": "After any history of subscribe and unsubscribe, every topic level stored in the table refers to a topic string that is still alive.", "quantifier": "every history of subscribe/unsubscribe", "why_tests_cant": "Needs particular histories; a sanitizer only reports on histories someone wrote.", "anchors": ["source/topic_tree.c:s_topic_tree_action_commit", "source/topic_tree.c:s_topic_node_destroy"]}
{"id": "C12", "title": "Aborted 3.1.1 subscription transactions leave no trace", "statement": "Rolling back a transaction of inserts/removes leaves the subscription table delivering exactly as before the transaction started.", "quantifier": "every table state and every transaction", "why_tests_cant": "All states x all transactions.", "anchors": ["source/topic_tree.c:s_topic_tree_action_roll_back", "source/topic_tree.c:aws_mqtt_topic_tree_transaction_roll_back"]}
{"id": "C13", "title": "Adapter subscription set: dispatch equals MQTT matching over the surviving filters", "statement": "For a 3.1.1 connection running over a 5 client, after any history of add/remove, an incoming publish invokes the handlers of exactly the filters currently present that match the topic, and lookups/listing agree with the map obtained by applying the history.", "quantifier": "every history and every wildcard-free topic", "why_tests_cant": "Unbounded histories over a reference counted trie.", "anchors": ["source/mqtt_subscription_set.c"]}
{"id": "C14", "title": "Rate limiter never lets more through than burst plus rate times elapsed time", "statement": "Over any sequence of regenerations and takes, the number of tokens taken in any interval exceeds the configured burst plus tokens-per-second times the elapsed time by less than one token, and the number taken since creation never exceeds the initial tokens plus tokens-per-second times the elapsed time (rounded down); the bucket never exceeds its burst size.", "quantifier": "every clock sequence and every take sequence", "why_tests_cant": "Accumulated rounding error can only be bounded by an inductive argument.", "anchors": ["source/v5/rate_limiters.c:aws_rate_limiter_token_bucket_take_tokens", "source/v5/rate_limiters.c:s_regenerate_tokens"]}
{"id": "C15", "title": "Rate limiter does not lose fractional tokens", "statement": "While the bucket is not full, the number of tokens generated since the last reset equals floor(elapsed nanoseconds x rate / 10^9), however the elapsed time is split into polls.", "quantifier": "every split of elapsed time into polls, every rate", "why_tests_cant": "Drift shows only over unboundedly many polls.", "anchors": ["source/v5/rate_limiters.c:s_regenerate_tokens"]}
{"id": "C16", "title": "Rate limiter wait time is sufficient and minimal", "statement": "The computed wait for n tokens is 0 iff n tokens are available; otherwise after waiting exactly that long n tokens can be taken, and one nanosecond earlier they cannot.", "quantifier": "every bucket state, every n up to the burst, every clock value (within 64-bit range)", "why_tests_cant": "Off-by-one in nanosecond rounding over 2^64 states.", "anchors": ["source/v5/rate_limiters.c:aws_rate_limiter_token_bucket_compute_wait_for_tokens"]}
{"id": "C17", "title": "Outbound topic aliasing is transparent to the server", "statement": "For any sequence of publishes under any outbound alias policy, a server applying the MQTT5 alias rules to the (topic, alias) pairs produced reconstructs exactly the original topics, and never sees alias 0, an alias above its announced maximum, or an unknown alias.", "quantifier": "every sequence of topics, every maximum, every policy, and every reconnect (reset)", "why_tests_cant": "LRU eviction histories are unbounded.", "anchors": ["source/v5/mqtt5_topic_alias.c:aws_mqtt5_outbound_topic_alias_resolver_resolve_outbound_publish", "source/v5/mqtt5_topic_alias.c"]}
{"id": "C18", "title": "Inbound topic aliases resolve to the last topic registered", "statement": "For any sequence of inbound alias registrations, resolving an alias yields the topic most recently registered for it on this connection, and fails for alias 0, an alias above the client's maximum, or an alias never registered since the last reset.", "quantifier": "every history of register/resolve/reset", "why_tests_cant": "Unbounded histories.", "anchors": ["source/v5/mqtt5_topic_alias.c:aws_mqtt5_inbound_topic_alias_resolver_register_alias", "source/v5/mqtt5_topic_alias.c:aws_mqtt5_inbound_topic_alias_resolver_resolve_alias"]}
{"id": "C19", "title": "MQTT5 variable length integers round-trip and sizes agree", "statement": "For every value below 2^28 the encoder's bytes decode to the same value, the advertised size equals the number of bytes, and larger values are refused; the decoder reports 'need more data' on every strict prefix.", "quantifier": "every 32-bit value, every prefix", "why_tests_cant": "All values and all prefixes.", "anchors": ["source/v5/mqtt5_encoder.c:aws_mqtt5_encode_variable_length_integer", "source/v5/mqtt5_encoder.c:aws_mqtt5_get_variable_length_encode_size", "source/v5/mqtt5_decoder.c:aws_mqtt5_decode_vli"]}
{"id": "C20", "title": "MQTT5 encoder output does not depend on output buffer sizes", "statement": "Draining the encoder through any sequence of output buffers produces, concatenated, exactly the same bytes as one buffer large enough, and always terminates when every buffer has at least 4 bytes of room.", "quantifier": "every encoding step list and every sequence of buffer capacities", "why_tests_cant": "Exponentially many fragmentations.", "anchors": ["source/v5/mqtt5_encoder.c:aws_mqtt5_encoder_encode_to_buffer", "source/v5/mqtt5_encoder.c:s_execute_encode_step"]}
{"id": "C21", "title": "MQTT5 packet lengths announced are the lengths written", "statement": "For every outgoing packet, the number of bytes produced after the fixed header equals the remaining length written in it, and the property lengths written equal the bytes of the property sections.", "quantifier": "every CONNECT/PUBLISH/SUBSCRIBE/UNSUBSCRIBE/PUBACK/DISCONNECT/PINGREQ view accepted by validation, with any optional fields", "why_tests_cant": "All combinations of optional properties and unbounded user property lists.", "anchors": ["source/v5/mqtt5_encoder.c:s_compute_publish_variable_length_fields", "source/v5/mqtt5_encoder.c"]}
{"id": "C22", "title": "MQTT5 outgoing packets mean what the user asked for", "statement": "Parsing the bytes produced for a PUBLISH, SUBSCRIBE, UNSUBSCRIBE, CONNECT, DISCONNECT or PUBACK according to the MQTT5 grammar yields back exactly the fields the user supplied.", "quantifier": "every packet view accepted by validation", "why_tests_cant": "Unbounded fields and option combinations.", "anchors": ["source/v5/mqtt5_encoder.c"]}
{"id": "C23", "title": "MQTT5 incoming packets are decoded faithfully", "statement": "For every server packet (CONNACK, PUBLISH, PUBACK, SUBACK, UNSUBACK, PINGRESP, DISCONNECT) serialized according to the MQTT5 grammar, the decoder delivers exactly its fields, with user properties in order.", "quantifier": "every well formed server packet", "why_tests_cant": "Unbounded packets with arbitrary property order.", "anchors": ["source/v5/mqtt5_decoder.c"]}
{"id": "C24", "title": "MQTT5 streaming decode does not depend on chunking and errors are final", "statement": "Any split of the byte stream into chunks gives the same delivered packets and outcome; after a decode error nothing more is delivered until reset.", "quantifier": "every byte stream and chunking", "why_tests_cant": "Exponentially many partitions.", "anchors": ["source/v5/mqtt5_decoder.c:aws_mqtt5_decoder_on_data_received"]}
{"id": "C25", "title": "MQTT5 malformed server packets are rejected", "statement": "A server packet whose inner lengths disagree with its remaining length, or whose fixed header flags are illegal, is reported as a protocol error and never delivered.", "quantifier": "every byte string", "why_tests_cant": "Adversarial input space.", "anchors": ["source/v5/mqtt5_decoder.c:s_aws_mqtt5_decoder_decode_suback", "source/v5/mqtt5_decoder.c:s_aws_mqtt5_decoder_decode_unsuback", "source/v5/mqtt5_decoder.c:s_aws_mqtt5_decoder_decode_publish"]}
{"id": "C26", "title": "MQTT5 client never sends a packet larger than the server's maximum packet size", "statement": "Every operation packet put on the wire while connected is no larger than the maximum packet size in the CONNACK.", "quantifier": "every operation, alias policy and negotiated maximum", "why_tests_cant": "Needs the exact boundary sizes with ids and aliases.", "anchors": ["source/v5/mqtt5_options_storage.c:aws_mqtt5_operation_validate_vs_connection_settings", "source/v5/mqtt5_encoder.c:aws_mqtt5_packet_view_get_encoded_size", "source/v5/mqtt5_client.c:aws_mqtt5_client_service_operational_state"]}
{"id": "C27", "title": "MQTT5: every accepted operation completes exactly once", "statement": "Each publish/subscribe/unsubscribe accepted by the client has its completion callback invoked at most once, and, at every moment, exactly one of: it has completed, or the client still holds it; when the client terminates all have completed.", "quantifier": "every interleaving of submissions, acks, write completions, timeouts, disconnects, reconnects (with or without session) and termination", "why_tests_cant": "Completion is a property of whole histories.", "anchors": ["source/v5/mqtt5_client.c:aws_mqtt5_client_service_operational_state", "source/v5/mqtt5_client.c:s_complete_operation", "source/v5/mqtt5_client.c:aws_mqtt5_client_on_disconnection_update_operational_state"]}
{"id": "C28", "title": "MQTT5: QoS1 publishes keep submission order across reconnects", "statement": "At every moment the QoS1 publishes that are unacknowledged or queued are held in submission order, unacknowledged ones are resent first with the same packet id and DUP set when the session resumes, so the server sees first transmissions in submission order.", "quantifier": "every history of submissions, acks, disconnects and session resumptions", "why_tests_cant": "Order under repeated interruption is an inductive property.", "anchors": ["source/v5/mqtt5_client.c:aws_mqtt5_client_on_connection_update_operational_state", "source/v5/mqtt5_client.c:aws_mqtt5_client_on_disconnection_update_operational_state"]}
{"id": "C29", "title": "MQTT5: packet ids in flight are unique", "statement": "Two operations awaiting acknowledgement on the same connection never carry the same packet id; ids are never 0.", "quantifier": "every history including id wrap-around and reconnects", "why_tests_cant": "65535-id wraparound and reconnect interplay.", "anchors": ["source/v5/mqtt5_client.c:aws_mqtt5_operation_bind_packet_id", "source/v5/mqtt5_client.c:s_aws_mqtt5_client_set_current_operation"]}
{"id": "C30", "title": "MQTT5: the server's receive maximum is respected and never aborts the client", "statement": "While connected, the number of QoS1 publishes sent but not acknowledged never exceeds the receive maximum of the CONNACK, and no sequence of events makes the client's flow control abort the process.", "quantifier": "every history of submissions, acks, validation failures", "why_tests_cant": "Requires particular queue contents at an exhausted window.", "anchors": ["source/v5/mqtt5_client.c:s_aws_mqtt5_client_should_service_operational_state", "source/v5/mqtt5_client.c:aws_mqtt5_client_flow_control_state_on_outbound_operation"]}
{"id": "C31", "title": "MQTT5: offline queue behaviour decides exactly which operations survive a disconnect", "statement": "On disconnect, and on submission while offline, an operation is failed with the offline-queue-policy error iff the configured behaviour does not retain its kind; all others remain queued in order.", "quantifier": "every queue content and each of the configured behaviours", "why_tests_cant": "All queue contents x policies x session outcomes.", "anchors": ["source/v5/mqtt5_client.c:s_aws_mqtt5_operation_is_retainable", "source/v5/mqtt5_client.c:aws_mqtt5_client_on_disconnection_update_operational_state"]}
{"id": "C32", "title": "MQTT5: a requested clean disconnect always progresses", "statement": "Once stop() with a DISCONNECT has put the client in its clean-disconnect phase, the DISCONNECT packet is eventually written (whenever the channel keeps accepting writes), whatever packets arrive meanwhile.", "quantifier": "every interleaving of inbound packets with the clean disconnect", "why_tests_cant": "Needs the exact interleaving of an inbound QoS1 publish.", "anchors": ["source/v5/mqtt5_client.c:s_aws_mqtt5_client_has_pending_operational_work", "source/v5/mqtt5_client.c:s_change_current_state_to_clean_disconnect"]}
{"id": "C33", "title": "MQTT5: lifecycle events follow the documented order", "statement": "Lifecycle events always form sequences (attempting-connect, then (connection-failure | connection-success then disconnection))*, with stopped only when idle; no event sequence aborts the process.", "quantifier": "every interleaving of start/stop calls, channel events and server packets", "why_tests_cant": "Interleavings.", "anchors": ["source/v5/mqtt5_client.c:s_aws_mqtt5_client_emit_final_lifecycle_event", "source/v5/mqtt5_client.c:s_change_current_state"]}
{"id": "C34", "title": "MQTT5: operation statistics equal the real counts", "statement": "At every moment incomplete/unacked counts and sizes reported equal the number and total size of submitted-but-incomplete and sent-but-unacked operations.", "quantifier": "every history", "why_tests_cant": "Counter drift is a history property.", "anchors": ["source/v5/mqtt5_client.c:aws_mqtt5_client_statistics_change_operation_statistic_state"]}
{"id": "C35", "title": "MQTT5: keep-alive detects a dead connection and never pings too rarely", "statement": "While connected with keep-alive k, a PINGREQ is queued no later than k seconds after the previous one's schedule; a missing PINGRESP closes the connection no later than min(ping timeout, k/2) after the ping, and a timely response always prevents that.", "quantifier": "every clock sequence and configuration", "why_tests_cant": "All timings.", "anchors": ["source/v5/mqtt5_client.c:s_aws_mqtt5_client_compute_pending_timeout", "source/v5/mqtt5_client.c:aws_mqtt5_client_service"]}
{"id": "C36", "title": "Reconnect delay stays within the configured bounds and grows exponentially", "statement": "After n consecutive failures the delay without jitter is min(max, min*2^n); with jitter it never exceeds that; it is reset after a connection that stayed up for the configured minimum; no overflow.", "quantifier": "every number of failures, every random draw, every configuration", "why_tests_cant": "Saturation and overflow at 64 bits.", "anchors": ["source/v5/mqtt5_client.c:s_aws_mqtt5_client_compute_reconnect_delay", "source/client.c:s_attempt_reconnect"]}
{"id": "C37", "title": "MQTT5: manual PUBACK is sent at most once per acquired publish", "statement": "For each QoS1 publish whose acknowledgement the user took over, at most one PUBACK is sent; it is sent only if invoked on the same connection that delivered it; if not taken over, exactly one PUBACK is queued automatically.", "quantifier": "every interleaving of receive/acquire/invoke/disconnect", "why_tests_cant": "Interleavings across reconnects.", "anchors": ["source/v5/mqtt5_client.c:aws_mqtt5_client_acquire_puback", "source/v5/mqtt5_client.c:aws_mqtt5_client_invoke_puback"]}
{"id": "C38", "title": "MQTT5: negotiated settings are exactly CONNECT defaults overridden by the CONNACK", "statement": "After a successful CONNACK every negotiated setting equals the CONNACK's value if present, else the value the client requested, else the MQTT5 default.", "quantifier": "every CONNECT configuration and CONNACK", "why_tests_cant": "2^n combinations of optional fields.", "anchors": ["source/v5/mqtt5_utils.c:aws_mqtt5_negotiated_settings_reset", "source/v5/mqtt5_utils.c:aws_mqtt5_negotiated_settings_apply_connack"]}
{"id": "C39", "title": "MQTT5: shared-subscription detection and IoT Core topic limits agree with their definitions", "statement": "A filter is treated as shared iff it has the form $share/<non-empty group without wildcard>/<non-empty rest>; the IoT Core length and segment limits are applied to the part after the documented prefixes.", "quantifier": "every byte string", "why_tests_cant": "All strings.", "anchors": ["source/v5/mqtt5_utils.c:aws_mqtt_is_topic_filter_shared_subscription", "source/v5/mqtt5_utils.c:aws_mqtt_is_valid_topic_for_iot_core"]}
{"id": "C40", "title": "MQTT5: listeners see every lifecycle event and publishes stop at the first taker", "statement": "Every attached listener gets each lifecycle event exactly once before the client's own handler; an incoming publish is offered to listeners most recent first until one accepts it, and to the client's handler iff none does.", "quantifier": "every history of attach/detach and events", "why_tests_cant": "Histories of attach/detach.", "anchors": ["source/v5/mqtt5_callbacks.c"]}
{"id": "C41", "title": "Request-response: at most one broker operation outstanding per topic filter", "statement": "For any history, each topic filter managed has at most one subscribe or unsubscribe outstanding, and no filter is unsubscribed while a request or stream depends on it.", "quantifier": "every interleaving of acquire/release/purge/completion/connection events", "why_tests_cant": "Interleavings.", "anchors": ["source/request-response/subscription_manager.c"]}
{"id": "C42", "title": "Request-response: subscription budgets are never exceeded", "statement": "The number of request-response and of streaming subscriptions held never exceeds the configured maxima.", "quantifier": "every history", "why_tests_cant": "Histories.", "anchors": ["source/request-response/subscription_manager.c:aws_rr_subscription_manager_acquire_subscription"]}
{"id": "C43", "title": "Request-response: no history of broker responses aborts the process", "statement": "As long as each subscribe/unsubscribe issued gets exactly one completion, none of the subscription manager's internal assertions can fire.", "quantifier": "every interleaving of completions, session losses, acquires", "why_tests_cant": "Interleavings.", "anchors": ["source/request-response/subscription_manager.c:s_handle_protocol_adapter_request_subscription_event", "source/request-response/subscription_manager.c:s_handle_protocol_adapter_streaming_subscription_event"]}
{"id": "C44", "title": "Request-response: each request completes exactly once", "statement": "Each submitted request's callback is invoked exactly once (response, failure or timeout).", "quantifier": "every interleaving of timeouts, responses, unsubscribe completions, shutdown", "why_tests_cant": "A race between timeout and dequeuing.", "anchors": ["source/request-response/request_response_client.c:s_check_for_operation_timeouts", "source/request-response/request_response_client.c:s_process_queued_operations", "source/request-response/request_response_client.c:s_complete_request_operation_with_response"]}
{"id": "C45", "title": "Request-response: a request is published once all its subscriptions are in place", "statement": "If every subscription a request needs is established (and the connection stays up), its message is published.", "quantifier": "every set of response filters incl. already subscribed ones, every order of SUBACKs", "why_tests_cant": "Combination of pre-existing subscriptions.", "anchors": ["source/request-response/request_response_client.c:s_aws_rr_client_subscription_status_event_task"]}
{"id": "C46", "title": "Request-response: responses are routed by topic and correlation token", "statement": "A response completes a request iff it arrives on one of the request's response topics and carries the request's correlation token (or the topic has no token path); streams receive exactly publishes whose topic matches their filter.", "quantifier": "every history of registrations and every incoming publish", "why_tests_cant": "All histories x publishes.", "anchors": ["source/request-response/request_response_subscription_set.c", "source/request-response/request_response_client.c:s_complete_request_operation_with_response"]}
{"id": "C47", "title": "3.1.1 client: every operation completes exactly once", "statement": "Each publish/subscribe/unsubscribe accepted by the 3.1.1 connection is completed at most once and is completed or still held at any time; after destruction all have completed.", "quantifier": "every interleaving of requests, acks, timeouts, disconnects, reconnects, clean sessions", "why_tests_cant": "History property.", "anchors": ["source/client.c:mqtt_create_request", "source/client.c:mqtt_request_complete", "source/client.c:s_mqtt_client_shutdown", "source/client.c:s_mqtt_client_connection_destroy_final"]}
{"id": "C48", "title": "3.1.1 client: packet ids of outstanding operations are unique and non-zero", "statement": "Any two operations outstanding at the same time have different packet ids, never 0; a new operation is refused for lack of ids only if all 65535 are in use.", "quantifier": "every history", "why_tests_cant": "Wraparound.", "anchors": ["source/client.c:mqtt_create_request"]}
{"id": "C49", "title": "3.1.1 client: interrupted operations are retried in submission order", "statement": "After reconnecting with a persistent session, outstanding operations are (re)sent in the order they were submitted.", "quantifier": "every history of submissions and interruptions", "why_tests_cant": "Needs interruption between two sends.", "anchors": ["source/client.c:s_mqtt_client_shutdown", "source/client_channel_handler.c:s_request_outgoing_task"]}
{"id": "C50", "title": "3.1.1 client: operation statistics equal the real counts", "statement": "The incomplete/unacked counts reported equal the number of outstanding operations at every moment.", "quantifier": "every history", "why_tests_cant": "Counter drift.", "anchors": ["source/client.c:aws_mqtt_connection_statistics_change_operation_statistic_state", "source/client.c:s_mqtt_client_shutdown"]}
{"id": "C51", "title": "3.1.1 client: each connect() gets exactly one completion callback", "statement": "For each accepted connect() call, on_connection_complete is invoked exactly once.", "quantifier": "every outcome of channel setup, CONNECT encoding, CONNACK and shutdown", "why_tests_cant": "Failure paths combine.", "anchors": ["source/client.c:s_mqtt_client_init", "source/client.c:s_mqtt_client_shutdown"]}
{"id": "C52", "title": "3.1.1 client: nothing is accepted from the server before CONNACK", "statement": "Any packet other than CONNACK received on a new connection before a CONNACK closes the connection without being processed, also on automatic reconnects.", "quantifier": "every packet sequence on first connects and reconnects", "why_tests_cant": "State x packet combinations.", "anchors": ["source/client_channel_handler.c:s_validate_received_packet_type"]}
{"id": "C53", "title": "3.1.1 client: a server acknowledgement can only complete the operation it acknowledges", "statement": "An acknowledgement completes an operation only if that operation was sent and is of the acknowledged kind; any other acknowledgement is ignored or closes the connection without memory errors.", "quantifier": "every inbound packet sequence from an arbitrary server", "why_tests_cant": "Adversarial server.", "anchors": ["source/client_channel_handler.c:s_packet_handler_suback", "source/client_channel_handler.c:s_packet_handler_ack", "source/client.c:mqtt_request_complete"]}
{"id": "C54", "title": "3.1.1 client: packets within protocol limits can always be sent", "statement": "A CONNECT, SUBSCRIBE or UNSUBSCRIBE whose fields are within MQTT limits always fits the buffer the client allocates for it.", "quantifier": "every packet size", "why_tests_cant": "Boundary at remaining length 16384.", "anchors": ["source/client_channel_handler.c:mqtt_get_message_for_packet"]}
{"id": "C55", "title": "MQTT5: an acknowledgement can only complete the operation kind it acknowledges", "statement": "A PUBACK completes only a QoS1 publish, a SUBACK only a subscribe, an UNSUBACK only an unsubscribe.", "quantifier": "every inbound packet sequence", "why_tests_cant": "Adversarial server.", "anchors": ["source/v5/mqtt5_client.c:aws_mqtt5_client_operational_state_handle_ack"]}
{"id": "C56", "title": "MQTT5: options accepted at submission satisfy the protocol's static rules", "statement": "Every publish/subscribe/unsubscribe/disconnect accepted by its constructor has a legal topic or filters, QoS, lengths and flags, so that nothing malformed can reach the encoder.", "quantifier": "every option struct", "why_tests_cant": "All combinations of options.", "anchors": ["source/v5/mqtt5_options_storage.c:aws_mqtt5_packet_publish_view_validate", "source/v5/mqtt5_options_storage.c"]}
{"id": "C57", "title": "SDK metrics in the user name keep what the user wrote", "statement": "With SDK metrics configured, the CONNECT user name keeps the text before the user's last '?' and every parameter the user put after it, in order and with the same value; SDK, Platform and Metadata are added only where the user did not give them and Metadata entries never override the user's. A result longer than 65535 bytes makes building the CONNECT fail with an error, and never crashes.", "quantifier": "every user name, every library name and list of metadata entries", "why_tests_cant": "All strings; the interesting ones have several separators, empty pieces, duplicate keys or lie at the length limit.", "anchors": ["source/mqtt_iot_metrics.c:aws_mqtt_append_sdk_metrics_to_username", "source/v5/mqtt5_options_storage.c:s_aws_mqtt5_packet_connect_compute_storage_size"]}
{"id": "C58", "title": "MQTT5: no event makes the client abort or run into undefined behaviour", "statement": "For every configuration, whatever the user, the server, the network and the clock do in whatever order, no fatal assert of the client fails and no operation is used after its completion or as an operation of another kind.", "quantifier": "every interleaving of API calls, service task runs, received packets, channel events and clock values", "why_tests_cant": "The fatal asserts fail only in particular combinations of state, negotiated settings, queue contents and packets received; the server may be adversarial.", "anchors": ["source/v5/mqtt5_client.c:s_aws_mqtt5_client_emit_final_lifecycle_event", "source/v5/mqtt5_client.c:aws_mqtt5_client_flow_control_state_on_outbound_operation", "source/v5/mqtt5_client.c:aws_mqtt5_client_operational_state_handle_ack", "source/v5/mqtt5_client.c"]}
{"id": "C59", "title": "Request-response: no event makes the client abort or use a freed operation", "statement": "Whatever the user, the protocol adapter, the broker and the clock do in whatever order, no fatal assert of the request-response client or its subscription manager fails, every operation that is used is still there, every operation the tables, the queue and the timeout heap refer to is still there, and no operation is freed twice.", "quantifier": "every interleaving of requests, streams, releases, incoming publishes, subscription results, connection events, service runs, timeouts and event loop tasks", "why_tests_cant": "Operations are shared by the queue, four tables, the subscription manager and pending tasks; a dangling reference shows only in particular interleavings of completion, timeout, release and shutdown.", "anchors": ["source/request-response/request_response_client.c:s_mqtt_rr_client_destroy_operation", "source/request-response/request_response_client.c:s_handle_subscription_status_event_task", "source/request-response/request_response_client.c:s_mqtt_request_response_client_external_shutdown_task_fn", "source/request-response/request_response_subscription_set.c"]}
{"id": "C60", "title": "3.1.1 client: a publish is marked as a duplicate exactly when it is sent again", "statement": "When an operation is sent, it is sent as a repetition (with the DUP flag, if it is a PUBLISH) if and only if it has been sent before, on this or an earlier connection; on one connection no operation is sent twice.", "quantifier": "every history of submissions, interruptions, reconnects and acknowledgements", "why_tests_cant": "The flag depends on the whole history of an operation across any number of interruptions.", "anchors": ["source/client.c:s_publish_send", "source/client_channel_handler.c:s_request_outgoing_task"]}
{"id": "C61", "title": "Request-response: a request is published at most once and not before its subscriptions are in place", "statement": "A message the request-response client publishes is the message (topic and payload) of a request submitted before; no request is published twice; and when it is published, each topic filter the request lists has been subscribed at the broker at some moment since the request took its place in the subscription manager.", "quantifier": "every interleaving of requests, streams, releases, incoming publishes, subscription results, connection events, service runs, timeouts and event loop tasks", "why_tests_cant": "A request that is published too early loses its response only if the broker answers before the missing subscription is active; the count of outstanding subscriptions is kept across requests that share filters, lost sessions and late events.", "anchors": ["source/request-response/request_response_client.c:s_on_request_operation_subscription_status_event", "source/request-response/request_response_client.c:s_handle_operation_subscribe_result", "source/request-response/request_response_client.c:s_make_mqtt_request", "source/request-response/subscription_manager.c"]}
{"id": "C62", "title": "3.1.1 client: a publish with QoS 0 is sent at most once and is not kept for later", "statement": "A publish with QoS 0 is refused when the client is not connected. One that is accepted is sent at most once on all channels together and never with the flag DUP; once it has been sent its completion callback has been invoked. Until it is complete it waits in an outgoing task and nowhere else: running the task completes it (with success if it was sent), and when the channel is gone the task can only be cancelled, which completes it with AWS_ERROR_MQTT_NOT_CONNECTED rather than keeping it for the next connection.", "quantifier": "every history of a connection: any API calls, connects, disconnects, packets, channel events and order of tasks", "why_tests_cant": "That a message is not sent a second time shows only in histories with a lost connection at each point between submission and completion; requests that are retried and those that are not share all lists and tasks.", "anchors": ["source/client_channel_handler.c:mqtt_create_request", "source/client_channel_handler.c:s_request_outgoing_task", "source/client.c:s_publish_send", "source/client.c:aws_mqtt_client_connection_311_publish", "source/client.c:s_mqtt_client_shutdown"]}
{"id": "C63", "title": "Adapter: every connect() is answered by exactly one on_connection_complete", "statement": "For every call of aws_mqtt_client_connection_connect() on a connection made from an MQTT 5 client that returned success, on_connection_complete is invoked exactly once: never twice, and never lost before the connection is terminated. It is invoked at once when the adapter is already connected or connecting, and otherwise as soon as the MQTT 5 client reports success or failure of an attempt.", "quantifier": "every history of the adapter together with its MQTT 5 client: any API calls of both, tasks, and events of the client in any order", "why_tests_cant": "The callback is stored in one slot that connect, disconnect, the lifecycle events and destruction all read and clear; a lost or repeated call shows only for particular interleavings of calls, tasks and the client's own reconnects.", "anchors": ["source/v5/mqtt5_to_mqtt3_adapter.c:s_aws_mqtt_client_connection_5_connect", "source/v5/mqtt5_to_mqtt3_adapter.c:s_aws_mqtt5_to_mqtt3_adapter_connect_handler", "source/v5/mqtt5_to_mqtt3_adapter.c:s_aws_mqtt5_to_mqtt3_adapter_lifecycle_handler", "source/v5/mqtt5_to_mqtt3_adapter.c:s_aws_mqtt5_to_mqtt3_adapter_disconnect_handler"]}
{"id": "C64", "title": "Adapter: every disconnect() is answered by exactly one on_disconnect", "statement": "For every call of aws_mqtt_client_connection_disconnect() on a connection made from an MQTT 5 client, on_disconnect is invoked exactly once and never lost: at once when the adapter is not connecting or connected or the client is already being stopped, otherwise when the client reports that it has stopped or at the next connect(). While it waits the client is being stopped.", "quantifier": "every history of the adapter together with its MQTT 5 client: any API calls of both, tasks, and events of the client in any order", "why_tests_cant": "As for C63; whether the client will report that it has stopped depends on where in its own state machine it was.", "anchors": ["source/v5/mqtt5_to_mqtt3_adapter.c:s_aws_mqtt_client_connection_5_disconnect", "source/v5/mqtt5_to_mqtt3_adapter.c:s_aws_mqtt5_to_mqtt3_adapter_disconnect_handler", "source/v5/mqtt5_to_mqtt3_adapter.c:s_aws_mqtt5_to_mqtt3_adapter_lifecycle_handler"]}
{"id": "C65", "title": "Adapter: on_connection_complete reports the outcome of an attempt begun after that connect()", "statement": "When on_connection_complete is invoked for a call of connect(), the result is that of a connection attempt which the MQTT 5 client began after the call was acted upon; a connection that was open or being opened before does not count, since it was made with other settings.", "quantifier": "every history of the adapter together with its MQTT 5 client: any API calls of both, tasks, and events of the client in any order", "why_tests_cant": "Needs a client that is connected, connecting or closing at the moment connect() is acted upon, in all combinations with events in flight.", "anchors": ["source/v5/mqtt5_to_mqtt3_adapter.c:s_aws_mqtt5_to_mqtt3_adapter_connect_handler", "source/v5/mqtt5_to_mqtt3_adapter.c:s_aws_mqtt5_to_mqtt3_adapter_lifecycle_handler", "source/v5/mqtt5_client.c:aws_mqtt5_client_reset_connection"]}
{"id": "C66", "title": "Adapter: ids of operations are valid and differ among operations in progress", "statement": "The id returned by publish(), subscribe(), unsubscribe() and resubscribe_existing_topics() of a connection made from an MQTT 5 client is between 1 and 65535 and differs from those of all operations in progress; a publish that is in order is refused only if all 65535 ids are in use.", "quantifier": "every history of the adapter together with its MQTT 5 client: any API calls of both, tasks, and events of the client in any order", "why_tests_cant": "Reuse of an id shows only after 65535 operations with old ones still in progress.", "anchors": ["source/v5/mqtt5_to_mqtt3_adapter.c:s_next_adapter_id", "source/v5/mqtt5_to_mqtt3_adapter.c:aws_mqtt5_to_mqtt3_adapter_operation_table_add_operation", "source/v5/mqtt5_to_mqtt3_adapter.c:s_aws_mqtt_client_connection_5_publish"]}
{"id": "C67", "title": "Adapter: every accepted operation is answered exactly once, with the outcome of the packet sent for it", "statement": "For every publish(), subscribe(), subscribe_multiple(), unsubscribe() and resubscribe_existing_topics() on a connection made from an MQTT 5 client that returned an id, the operation's callback is invoked at most once, with that id, and exactly once by the time the connection has terminated. The result it gets is that of the MQTT 5 operation made from the arguments of that call; the only others are that there was nothing to subscribe again to, or that the connection is terminated. Nothing is invoked after the termination callback.", "quantifier": "every history of the adapter together with its MQTT 5 client: any API calls of both, tasks, and events of the client in any order", "why_tests_cant": "Ids are reused, operations complete in any order and from several places (server, timeouts, loss of the connection, destruction of the adapter); a swapped or lost callback needs a particular interleaving.", "anchors": ["source/v5/mqtt5_to_mqtt3_adapter.c:s_aws_mqtt5_to_mqtt3_adapter_publish_completion_fn", "source/v5/mqtt5_to_mqtt3_adapter.c:s_aws_mqtt5_to_mqtt3_adapter_subscribe_completion_fn", "source/v5/mqtt5_to_mqtt3_adapter.c:s_aws_mqtt5_to_mqtt3_adapter_unsubscribe_completion_fn", "source/v5/mqtt5_to_mqtt3_adapter.c:aws_mqtt5_to_mqtt3_adapter_operation_table_clean_up", "source/v5/mqtt5_to_mqtt3_adapter.c:s_adapter_subscribe_submission_fn"]}
{"id": "C68", "title": "Adapter: it lives as long as it is used, ends when released, and does not corrupt memory", "statement": "A connection made from an MQTT 5 client is not terminated while the user holds a reference; once they have released the last one, its pending tasks bring it to its end whatever the client does, and the termination callback is invoked exactly once. No API call, task or event of the client uses memory of the adapter after its release, dereferences NULL or fails an assertion.", "quantifier": "every history of the adapter together with its MQTT 5 client: any API calls of both, tasks, and events of the client in any order", "why_tests_cant": "Needs release at every point of every pending task, with operations of the client that refer to the adapter still outstanding.", "anchors": ["source/v5/mqtt5_to_mqtt3_adapter.c:s_aws_mqtt_client_connection_5_release", "source/v5/mqtt5_to_mqtt3_adapter.c:s_mqtt_adapter_final_destroy_task_fn", "source/v5/mqtt5_to_mqtt3_adapter.c:s_aws_mqtt5_to_mqtt3_adapter_on_listener_detached", "source/v5/mqtt5_to_mqtt3_adapter.c:s_aws_mqtt_adapter_connect_task_new"]}
{"id": "C69", "title": "Adapter: after disconnect() there is no connection until the next connect()", "statement": "Once disconnect() on a connection made from an MQTT 5 client has been acted upon, and until connect() is called again, no callback tells the user of connection attempts, connections or their loss; and if the client is started by nobody else, it makes no further attempt to connect.", "quantifier": "every history of the adapter together with its MQTT 5 client: any API calls of both, tasks, and events of the client in any order", "why_tests_cant": "The client reconnects by itself; whether it is told to stop depends on the adapter's own idea of its state, which need not be the client's.", "anchors": ["source/v5/mqtt5_to_mqtt3_adapter.c:s_aws_mqtt5_to_mqtt3_adapter_disconnect_handler", "source/v5/mqtt5_to_mqtt3_adapter.c:s_aws_mqtt5_to_mqtt3_adapter_lifecycle_handler", "source/v5/mqtt5_client.c:aws_mqtt5_client_change_desired_state"]}
{"id": "C70", "title": "Adapter: what the server refuses is not reported as success", "statement": "The callback of an operation on a connection made from an MQTT 5 client reports success only if the server's answer to the packet sent for that call means success: a publish with a PUBACK reason code of 128 or more is an error; a subscribe reports for each topic the QoS granted, or the QoS that stands for failure; an unsubscribe with an UNSUBACK reason code of 128 or more is an error.", "quantifier": "every history of the adapter together with its MQTT 5 client: any API calls of both, tasks, and events of the client in any order", "why_tests_cant": "Needs a server that refuses, with each kind of packet and reason code.", "anchors": ["source/v5/mqtt5_to_mqtt3_adapter.c:s_aws_mqtt5_to_mqtt3_adapter_publish_completion_fn", "source/v5/mqtt5_to_mqtt3_adapter.c:s_aws_mqtt5_to_mqtt3_adapter_subscribe_completion_fn", "source/v5/mqtt5_to_mqtt3_adapter.c:s_aws_mqtt5_to_mqtt3_adapter_unsubscribe_completion_fn", "source/v5/mqtt5_to_mqtt3_adapter.c:s_convert_mqtt5_suback_reason_code_to_mqtt3_granted_qos"]}
{"id": "C71", "title": "Adapter: publishes that arrive go to the subscriptions in effect, whose user data is alive", "statement": "On a connection made from an MQTT 5 client, a publish that the client receives is handed on exactly once, while the user holds a reference, and calls exactly the handlers of the topic filters that match its topic and that are subscribed at that time, each once and with its own user data. Subscribed are the filters that the subscribe and unsubscribe calls acted upon so far leave, in the order of the calls; resubscribe_existing_topics() does not change them, and submits one SUBSCRIBE with exactly these filters and their QoS. User data with a cleanup function is cleaned up exactly as often as it was handed over by the time the connection is terminated, and not while it belongs to a subscription.", "quantifier": "every history of the adapter together with its MQTT 5 client: any API calls of both, tasks, and events of the client in any order", "why_tests_cant": "Subscriptions are changed by tasks that run later than the calls, while publishes arrive in between; the set is a tree with reference counts. A misdirected publish or a use of freed user data needs a particular order.", "anchors": ["source/v5/mqtt5_to_mqtt3_adapter.c:s_aws_mqtt5_listener_publish_received_adapter", "source/v5/mqtt5_to_mqtt3_adapter.c:s_adapter_subscribe_submission_fn", "source/v5/mqtt5_to_mqtt3_adapter.c:s_aws_mqtt5_to_mqtt3_adapter_build_resubscribe", "source/v5/mqtt5_to_mqtt3_adapter.c:s_adapter_unsubscribe_submission_fn", "source/mqtt_subscription_set.c:aws_mqtt_subscription_set_add_subscription"]}
{"id": "C72", "title": "3.1.1 client: the callbacks that tell of the connection come in order and agree with its state", "statement": "On a 3.1.1 connection each connect() that returns success is answered by one on_connection_complete; only after a successful one can on_interrupted come, only after on_interrupted can on_resumed come, and on_disconnect (with on_closed) comes once, after a successful on_connection_complete, and ends the connection; then, and after a failed on_connection_complete, the next connect() is accepted. What the callbacks have told agrees with the state of the connection.", "quantifier": "every history of the connection: API calls from any thread or callback, tasks, packets from the server, channels that are set up, fail or shut down at any time; except those in which CONNECT cannot be sent or an established connection gets a second CONNACK", "why_tests_cant": "The callbacks are invoked from four places outside of the lock (CONNACK, channel setup, channel shutdown, the reconnect task), and disconnect() may come between any two steps of them.", "anchors": ["source/client.c:s_mqtt_client_shutdown", "source/client.c:s_mqtt_client_init", "source/client.c:s_attempt_reconnect", "source/client_channel_handler.c:s_packet_handler_connack"]}
{"id": "C73", "title": "The request-response protocol adapter reports each operation once and rightly, and is silent once terminated", "statement": "Of each operation that the protocol adapter of a request-response client accepts, the adapter reports at most once: a subscribe or unsubscribe as often as the MQTT client completed it before the adapter terminated, a publish exactly once by then (SHUT_DOWN if still incomplete). The report has the filter and kind of that operation, is a success iff the server granted it, passes on an error of the client, and has the right retryability. Received publishes and changes of the connection are passed on while the listener is attached. After destroy the terminate callback comes within two tasks and nothing after it. No freed memory is used however late the client completes what it was given. Callbacks are made on the event loop of the client.", "quantifier": "every sequence of operations (accepted or refused), completions by the client with any answer in any order and at any time, also after termination, destroy at any time, publishes and connection events; 3.1.1 and 5", "why_tests_cant": "Completions after the adapter is gone, and destroy before the listener's first task, depend on timing that tests cannot force for each order.", "anchors": ["source/request-response/protocol_adapter.c:s_release_incomplete_operations", "source/request-response/protocol_adapter.c:s_protocol_adapter_311_subscribe_completion", "source/request-response/protocol_adapter.c:s_protocol_adapter_5_subscribe_completion", "source/request-response/protocol_adapter.c:s_protocol_adapter_5_publish_completion", "source/request-response/protocol_adapter.c:s_protocol_adapter_mqtt311_listener_termination_callback", "source/request-response/protocol_adapter.c:s_protocol_adapter_mqtt5_listener_termination_callback", "source/mqtt311_listener.c:s_mqtt311_listener_terminate_task_fn"]}
{"id": "C74", "title": "Operations of the MQTT 5 client that are not acknowledged time out at their ack timeout", "statement": "An operation that is sent and has to be acknowledged completes with a timeout only if it was sent on the present connection and its ack timeout (the one it was submitted with, or that of the client options if 0) has passed since it was last sent; with no ack timeout it does not time out. While the client is connected or disconnecting, an operation is not in flight for longer than its ack timeout, up to the lateness of the event loop; when the service task sees that the ack timeout has passed it completes the operation with a timeout or closes the connection.", "quantifier": "every history of the MQTT 5 client with clock readings: every order of submits with any ack timeouts, packets, write completions, lost connections and service tasks, every lateness of the event loop, every configuration", "why_tests_cant": "Deadlines, the heap of timeouts, the table of packet ids and the schedule of the service task interact; a lost deadline shows only after reuse of packet ids or with a particular order of deadlines.", "anchors": ["source/v5/mqtt5_client.c:s_check_timeouts", "source/v5/mqtt5_client.c:s_get_unacked_operation_timeout_for_next_service_time", "source/v5/mqtt5_client.c:s_reevaluate_service_task", "source/v5/mqtt5_client.c:aws_mqtt5_client_service_operational_state"]}
{"id": "C75", "title": "The MQTT 5 client gives up a connection attempt whose CONNACK does not come within the CONNACK timeout", "statement": "A client that wants to be connected does not wait for a CONNACK longer than the documented timeout of its options (connack_timeout_ms, 20 seconds if that is 0) counted from the setup of the channel, up to the lateness of the event loop: when the service task runs after the timeout it closes the channel and reports a connection failure with the error AWS_ERROR_MQTT5_CONNACK_TIMEOUT, once per attempt; a service task that runs before the timeout does not report it.", "quantifier": "every valid set of client options, every history of the MQTT 5 client with clock readings, every lateness of the event loop", "why_tests_cant": "The timeout passes through option defaults, unit conversion, the schedule of the service task and the state machine; it has to hold for every order of writes, submits and stops in between.", "anchors": ["source/v5/mqtt5_client.c:s_change_current_state_to_mqtt_connect", "source/v5/mqtt5_client.c:s_service_state_mqtt_connect", "source/v5/mqtt5_client.c:s_compute_next_service_time_client_mqtt_connect", "source/v5/mqtt5_options_storage.c:s_apply_zero_valued_defaults_to_client_options_storage", "source/v5/mqtt5_options_storage.c:aws_mqtt5_client_options_storage_new", "include/aws/mqtt/v5/mqtt5_client.h:connack_timeout_ms"]}
{"id": "C76", "title": "The options of an MQTT 5 client are checked, defaulted and sent in CONNECT as documented", "statement": "A client can be made from its options exactly if they have a host name, a bootstrap, usable socket options, ports that can be connected to, both handlers, valid CONNECT options, known alias behaviors and metrics of valid text. Options left zero have their documented defaults. Every CONNECT the client ever sends has the fields of the user's CONNECT options, except that clean start follows the session behavior (ask for the session always, never, or once the client has connected since it was last stopped), the topic alias maximum is the inbound cache size (25 by default) if inbound aliasing is enabled, and an empty user name counts as none. The client id is the user's if given; with extended validation it is otherwise one generated id, so that no CONNECT has an empty client id.", "quantifier": "every set of client options without SDK metrics for what is sent (with any for the checks), every history of the client", "why_tests_cant": "The options have many independent fields, and CONNECT packets are made anew at every reconnect from state that the server influences (client id, session flag).", "anchors": ["source/v5/mqtt5_options_storage.c:aws_mqtt5_client_options_validate", "source/v5/mqtt5_options_storage.c:aws_mqtt5_client_options_storage_new", "source/v5/mqtt5_options_storage.c:s_apply_zero_valued_defaults_to_client_options_storage", "source/v5/mqtt5_client.c:s_change_current_state_to_mqtt_connect", "source/v5/mqtt5_client.c:s_should_resume_session"]}
{"id": "C77", "title": "The server reads exactly the packets the MQTT 5 client sends", "statement": "At every moment of a connection of the MQTT 5 client, the bytes handed to the channel are a beginning of the encodings of the packets whose sending has begun, one after the other, with nothing before, between or after them. However a server cuts packets off the beginning of this stream, it finds the packets sent first, in order, with the fields the user gave: a PUBLISH sent with an empty topic and an alias is for the topic the user gave, for a server that keeps as many aliases as its CONNACK said. While the channel is open and no packet is half written, this is all of the packets begun.", "quantifier": "every history of the client, with every outbound alias behavior, buffer capacity, failure to write, reconnect and change of server limits; every division of the stream into packets", "why_tests_cant": "A packet may be spread over many buffers, sent after a reconnect left half of another, or name its topic by an alias learned many packets ago; a test decodes the packets it expects.", "anchors": ["source/v5/mqtt5_client.c:aws_mqtt5_client_service_operational_state", "source/v5/mqtt5_client.c:s_aws_mqtt5_client_set_current_operation", "source/v5/mqtt5_encoder.c:aws_mqtt5_encoder_encode_to_buffer", "source/v5/mqtt5_encoder.c:aws_mqtt5_encoder_append_packet_encoding", "source/v5/mqtt5_topic_alias.c"]}
{"id": "C78", "title": "The MQTT 5 client sends CONNECT first and nothing after DISCONNECT", "statement": "On every connection the MQTT 5 client sends CONNECT before all other packets (MQTT-3.1.0-1), at most once (MQTT-3.1.0-2), nothing but CONNECT and DISCONNECT until the server has accepted the connection, and nothing after DISCONNECT (MQTT-3.14.4-1).", "quantifier": "every history of the client: any options, submissions, stops, resets, failures, and packets of the server at any time", "why_tests_cant": "Packets are put at the front of the queue by several callbacks that can run in any order between two runs of the service task; tests let the service task run in between.", "anchors": ["source/v5/mqtt5_client.c:s_change_current_state_to_mqtt_connect", "source/v5/mqtt5_client.c:s_aws_mqtt5_client_shutdown_channel_with_disconnect", "source/v5/mqtt5_client.c:s_aws_mqtt5_client_has_pending_operational_work", "source/v5/mqtt5_client.c:aws_mqtt5_client_service_operational_state", "source/v5/mqtt5_client.c:aws_mqtt5_client_change_desired_state"]}
{"id": "C79", "title": "The MQTT 5 client uses topic aliases as its options say", "statement": "Every PUBLISH the MQTT 5 client sends carries no alias if outbound aliases are disabled (the default), the user's alias if they are left to the user, and with the LRU cache an alias chosen by the client: the topic is left out exactly when it is among the topics used last on the connection, as many as the cache holds, whatever alias the user gave. No alias is 0 or above what the server allows. The size of the cache is the minimum of outbound_alias_cache_max_size and the server's maximum; if the server allows none, aliases of the user are ignored. CONNECT offers inbound_alias_cache_size aliases if inbound aliases are enabled, and none if they are disabled.", "quantifier": "all acceptable options and every history of the client with any number of connections, for every PUBLISH begun in it", "why_tests_cant": "What alias a PUBLISH carries depends on all PUBLISH packets sent before it on the connection; tests fix a handful of topics and one cache size.", "anchors": ["include/aws/mqtt/v5/mqtt5_client.h:56-158", "source/v5/mqtt5_topic_alias.c:s_aws_mqtt5_outbound_topic_alias_resolver_lru_resolve_outbound_publish_fn", "source/v5/mqtt5_encoder.c:s_aws_mqtt5_encoder_begin_publish", "source/v5/mqtt5_client.c:aws_mqtt5_client_on_connection_update_operational_state", "source/v5/mqtt5_options_storage.c:s_apply_zero_valued_defaults_to_client_options_storage"]}
{"id": "C80", "title": "3.1.1 client: pings keep the connection alive and detect a dead one", "statement": "On an MQTT 3.1.1 connection the client sends a packet at least once in every keep-alive interval, beginning with CONNECT. It sends no ping within a keep-alive interval of another. If no PINGRESP comes within the ping timeout of a ping, or no CONNACK within the ping timeout of CONNECT, the channel is closed at that time; it is closed for a timeout for no other reason. A keep-alive time of 0 is 1200 s, a ping timeout of 0 is 3 s, and the ping timeout has to be below the keep-alive time.", "quantifier": "all options and every history of calls, packets from the server and tasks on any channel of a connection, with any times", "why_tests_cant": "When pings are sent depends on when each request was sent and acknowledged, in every interleaving with the ping task and its timeouts; tests try a few times on a mock clock.", "anchors": ["source/client_channel_handler.c:s_on_time_to_ping", "source/client_channel_handler.c:s_pushoff_next_ping_time", "source/client_channel_handler.c:s_packet_handler_connack", "source/client.c:s_pingreq_send", "source/client.c:s_pingresp_received_timeout", "source/client.c:s_connack_received_timeout", "source/client.c:aws_mqtt_client_connection_311_connect"]}
{"id": "C81", "title": "MQTT 5 packets are stored as exact copies that need no memory of the caller", "statement": "Making an operation of a packet's options (PUBLISH, SUBSCRIBE, UNSUBSCRIBE, DISCONNECT, CONNECT with its will) and storing a received CONNACK, PUBACK, SUBACK or UNSUBACK reads only memory the options point to and does not fail for lack of room: the buffer that is allocated is exactly filled. Whatever is done afterwards with all other memory, the stored packet says what the options said at the time of the call. There are two exceptions: the packet id of an UNSUBSCRIBE is 0, and an empty user name is none; the CONNECT of a client has the user name with metrics.", "quantifier": "all options in any memory, and every later state of memory in which the buffers of the storage are kept", "why_tests_cant": "A size that is computed too small for some combination of optional fields, or one field whose cursor still points to the caller's memory, shows only for options that combine these fields and after the caller reuses the memory.", "anchors": ["source/v5/mqtt5_options_storage.c:aws_mqtt5_packet_publish_storage_init", "source/v5/mqtt5_options_storage.c:aws_mqtt5_packet_connect_storage_init", "source/v5/mqtt5_options_storage.c:aws_mqtt5_packet_connack_storage_init", "source/v5/mqtt5_options_storage.c:aws_mqtt5_packet_subscribe_storage_init", "source/v5/mqtt5_options_storage.c:aws_mqtt5_packet_unsubscribe_storage_init", "source/v5/mqtt5_options_storage.c:aws_mqtt5_packet_disconnect_storage_init", "source/v5/mqtt5_options_storage.c:aws_mqtt5_packet_puback_storage_init", "source/v5/mqtt5_options_storage.c:aws_mqtt5_packet_suback_storage_init", "source/v5/mqtt5_options_storage.c:aws_mqtt5_packet_unsuback_storage_init", "source/v5/mqtt5_options_storage.c:aws_mqtt5_user_property_set_init_with_storage"]}
{"id": "C82", "title": "3.1.1 client: each attempt uses the options that were set", "statement": "Every CONNECT of an MQTT 3.1.1 connection, on the first and on later attempts, has the client id, the clean-session flag and the keep-alive time of the last connect() that was accepted, and the will, user name and password of the last set_will() and set_login() that succeeded before; the user name has the metrics of the last set_metrics(). Every socket is opened to the host and port of that connect(), with TLS exactly if it had TLS options, and then with these. Setters fail, without effect, exactly for invalid arguments and while a connection is being made or closed; nothing else changes the options then.", "quantifier": "every history of calls of setters, connect() and disconnect(), of attempts and failures on a connection, for all arguments", "why_tests_cant": "What an attempt sends depends on all calls before, on their order and on the state in which each was made; tests connect once with a few settings.", "anchors": ["source/client.c:s_aws_mqtt_client_connection_311_set_will", "source/client.c:s_aws_mqtt_client_connection_311_set_login", "source/client.c:s_aws_mqtt_client_connection_311_set_metrics", "source/client.c:s_aws_mqtt_client_connection_311_connect", "source/client.c:s_mqtt_client_connect", "source/client.c:s_mqtt_client_init", "source/client.c:s_is_valid_connection_state_for_configuration"]}
{"id": "C83", "title": "3.1.1 client: subscriptions in effect are those that were asked for", "statement": "Each SUBSCRIBE of an MQTT 3.1.1 connection for subscribe() or subscribe_multiple(), the first and those sent again, lists the filters and QoS of the call, and each UNSUBSCRIBE the filter of its call. SUBACK with one code for each filter is reported by on_suback, each filter with its code; with another number of codes it closes the connection. A message that comes calls on_publish of exactly the subscriptions in effect that match its topic, once each: those whose SUBSCRIBE was sent and that were not replaced or removed by a later packet for the same filter. resubscribe_existing_topics() sends one SUBSCRIBE with every subscription in effect, once, with its QoS, and on_suback lists these filters with the codes of SUBACK; if there are none, it sends nothing. A shared subscription `$share/name/filter` receives messages that match its filter, beside subscriptions of the filter itself.", "quantifier": "every history of subscribe, resubscribe and unsubscribe calls with any filters, of packets sent once or again in any order, of SUBACKs with any codes, failures and messages, for every iteration order of the hash tables", "why_tests_cant": "The table is changed by packets that are sent, not by calls, in any order, while earlier requests wait; requests keep pointers into the table. Tests subscribe a few filters one after another.", "anchors": ["source/client.c:s_subscribe_send", "source/client.c:s_subscribe_complete", "source/client.c:s_resubscribe_send", "source/client.c:s_resubscribe_complete", "source/client.c:s_unsubscribe_send", "source/client.c:s_is_topic_shared_topic", "source/client.c:s_get_normal_topic_from_shared_topic", "source/client_channel_handler.c:s_packet_handler_suback"]}
{"id": "C84", "title": "3.1.1 client: on_publish_ud_cleanup is called once, at the right time", "statement": "For each filter given to subscribe() or subscribe_multiple() of an MQTT 3.1.1 connection, the cleanup callback for its user data is called exactly once: not before the call was answered and the subscription is no longer in effect, and at the latest when both have happened or the connection is destroyed. on_publish is not called after it, and no topic structure is used after it was freed.", "quantifier": "every history of subscribe, resubscribe and unsubscribe calls with any filters, of packets sent once or again, answers, failures and messages, with the destruction of the connection at any point", "why_tests_cant": "A topic is held by its request and by the table, and either may let go first, on success, failure, replacement, removal, or at the end; tests use the callback on a few paths.", "anchors": ["source/client.c:s_task_topic_release", "source/client.c:s_task_topic_clean_up", "source/client.c:s_subscribe_send", "source/client.c:s_subscribe_complete", "source/client.c:s_subscribe_single_complete", "source/client.c:s_mqtt_client_connection_destroy_final"]}
{"id": "C85", "title": "3.1.1 client: operations time out after protocol_operation_timeout_ms, and not earlier", "statement": "An operation of an MQTT 3.1.1 connection (subscribe, unsubscribe, resubscribe, publish with QoS 1 or 2) that is sent and gets no response fails with AWS_ERROR_MQTT_TIMEOUT once protocol_operation_timeout_ms have passed since its packet was written to the socket of the connection in use, and never before; the time starts again after an interruption; 0 disables it. A timeout fails one operation only, each operation completes at most once, and neither a timeout task nor a request is used after it was freed.", "quantifier": "every history of connect calls with any timeouts, channels that come and go, operations submitted, sent, refused, written, acknowledged or failed in any order, and any run times of the timeout tasks", "why_tests_cant": "A request and its timeout task point at each other and each may go first, by acknowledgement, timeout, another failure, or the end of the channel; tests use one timeout value and one operation.", "anchors": ["source/client.c:s_request_timeout", "source/client.c:s_schedule_timeout_task", "source/client.c:s_subscribe_send", "source/client.c:s_unsubscribe_send", "source/client.c:s_publish_send", "source/client.c:aws_mqtt_client_connection_311_connect"]}
{"id": "C86", "title": "3.1.1 listeners get the events of their connection from when they are attached until they terminate, and keep it alive", "statement": "When an MQTT 3.1.1 connection passes an event on to its listeners (a message of any topic, a successful connection, an interruption, a disconnect; C91 says when it does), the handlers for it of all listeners that are attached are called once each with its arguments, those created last first, and no other handlers, whatever the handlers do. A listener is attached when the event loop runs the task scheduled by its creation; events before that are not passed to it. After its last reference is released it terminates in a task of the event loop: its termination callback is called once, after it was attached, and no handler of it is called later. The connection goes when nobody but listeners holds a reference of it and all listeners have terminated, and not before. No freed memory is used.", "quantifier": "every history of creations, acquires and releases of any number of listeners and of the connection, events, and runs of tasks, with the calls of users at any time, also between two handlers of one event", "why_tests_cant": "References of a listener are held by users and by its initialize task, and each listener holds one of the connection; which goes first depends on the order in which threads release them, and on what handlers do while the list is iterated.", "anchors": ["source/mqtt311_listener.c:aws_mqtt311_listener_new", "source/mqtt311_listener.c:aws_mqtt311_listener_release", "source/mqtt311_listener.c:s_mqtt311_listener_initialize_task_fn", "source/mqtt311_listener.c:s_mqtt311_listener_terminate_task_fn", "source/mqtt311_listener.c:s_mqtt311_listener_destroy", "source/mqtt311_listener.c:aws_mqtt311_callback_set_manager_push_front", "source/mqtt311_listener.c:aws_mqtt311_callback_set_manager_remove", "source/mqtt311_listener.c:aws_mqtt311_callback_set_manager_on_publish_received"]}
{"id": "C87", "title": "Adapter: sockets and CONNECTs use the options of connect() and the setters", "statement": "An MQTT 3.1.1 connection made from an MQTT 5 client opens each socket to the host and port, with the socket and TLS options, of the last connect() that took effect, and never sends CONNECT over a socket opened before it. Each CONNECT has the client id, keep alive and clean-session of that connect(), and the will, user name, password and metrics set last; ping timeout, operation timeout and reconnect delays are those that were set, with the documented meaning of 0. Calls take effect in the order made; a call that cannot be honoured is refused and changes nothing; none crashes the process.", "quantifier": "every client configuration, every history of connect, set_will, set_login, set_metrics and set_reconnect_timeout calls with any arguments, and any interleaving of their tasks with connection attempts, CONNACKs, disconnects and stops", "why_tests_cant": "The calls are applied later on the event loop, between any two steps of an attempt, and stored options are checked again when the next one is set; tests set options once before one connection.", "anchors": ["source/v5/mqtt5_to_mqtt3_adapter.c:s_aws_mqtt5_to_mqtt3_adapter_update_config_on_connect", "source/v5/mqtt5_to_mqtt3_adapter.c:s_set_login_task_fn", "source/v5/mqtt5_to_mqtt3_adapter.c:s_set_will_task_fn", "source/v5/mqtt5_client.c:aws_mqtt5_client_reset_connection", "source/v5/mqtt5_client.c:s_change_current_state_to_mqtt_connect", "include/aws/mqtt/client.h:aws_mqtt_connection_options"]}
{"id": "C88", "title": "MQTT5: a client that is released ends once, when nothing uses it any more", "statement": "While a user has a reference to an MQTT 5 client, it is not freed. Once the users have released all of them and the tasks scheduled before have run, no connection attempt begins; the client waits only for an attempt or connection that is under way, for a handshake transformation the user has yet to complete, or for its own service task, and is then freed and the termination handler called exactly once, after which nothing of it is used. Freed memory is never used and no reference is released that nobody has. A websocket handshake request is freed once, when the outcome of the handshake is known. The reference count becomes 0 once and is not acquired again afterwards.", "quantifier": "with and without websockets, every history of acquire, release, start, stop, operations and completed handshake transformations, any interleaving with the tasks of the event loop, any outcome of connection attempts, and connections ending at any time", "why_tests_cant": "The reference count, the queued tasks, the service task and the state of the connection together decide whether the client may be freed; tests release clients in a few orders, and a missing or extra reference only shows when the last release races a task or a handshake.", "anchors": ["source/v5/mqtt5_client.c:s_on_mqtt5_client_zero_ref_count", "source/v5/mqtt5_client.c:s_mqtt5_client_final_destroy", "source/v5/mqtt5_client.c:s_websocket_handshake_transform_complete", "source/v5/mqtt5_client.c:s_websocket_transform_complete_task_fn", "source/v5/mqtt5_client.c:s_change_state_task_fn", "source/v5/mqtt5_client.c:s_mqtt5_service_task_fn", "source/v5/mqtt5_client.c:s_mqtt5_client_shutdown_final"]}
{"id": "C89", "title": "3.1.1 client: a connection is never stuck, and connect() and disconnect() are answered", "statement": "Unless it is disconnected, a 3.1.1 connection always has something that carries it on without its user and without the server. A connect() that is accepted is answered by on_connection_complete, and an accepted disconnect() by on_disconnect, after a number of such steps that is bounded by the number of operations the connection has and gets; an interrupted connection makes its next attempt to reconnect within the same bound. A connection that has been disconnected, or that its user has released, is destroyed.", "quantifier": "every history of the connection, whatever calls, packets, timeouts, cancelled tasks and failures come in between; any number of outstanding operations", "why_tests_cant": "What brings a connection on is spread over the bootstrap callbacks, the disconnect task, the reconnect task and the callbacks in the middle of a shutdown, and a call can come between any two of them; a connection that is stuck is a test that does not end, and only if it hits the right gap.", "anchors": ["source/client.c:s_mqtt_client_shutdown", "source/client.c:s_mqtt_client_init", "source/client.c:s_attempt_reconnect", "source/client.c:s_mqtt_client_connection_start_destroy", "source/client.c:s_aws_mqtt_client_connection_311_connect", "source/client.c:s_aws_mqtt_client_connection_311_disconnect", "source/client_channel_handler.c:s_mqtt_disconnect_task", "source/client_channel_handler.c:mqtt_disconnect_impl"]}
{"id": "C90", "title": "3.1.1 client: disconnect() cancels all operations", "statement": "When on_disconnect is invoked for a disconnect() of a 3.1.1 connection, every operation that was accepted before has been completed, whether the session is clean or not (as client.h says: all uncompleted requests are cancelled, regardless of clean_session).", "quantifier": "every history of the connection, any number of operations, whether they have been sent or wait for a connection; any interleaving of the disconnect with acknowledgements, timeouts, interruptions and reconnects", "why_tests_cant": "Which operations the shutdown finds depends on when the disconnect comes: before or after the channel is gone, with operations queued while reconnecting, and on the kind of the session; tests disconnect idle connections.", "anchors": ["source/client.c:s_mqtt_client_shutdown", "source/client.c:s_attempt_reconnect", "source/client.c:s_aws_mqtt_client_connection_311_disconnect", "source/client_channel_handler.c:mqtt_create_request"]}
{"id": "C91", "title": "3.1.1 listeners are told of messages, connections, interruptions and disconnects as the callbacks of the connection are", "statement": "Whenever the callbacks of an MQTT 3.1.1 connection tell of a message, of a connection that is established for the first time or again, of an interruption or of a disconnect, the handlers of its listeners for it are called, in the same order, and they are not called for anything else. A listener takes the connection for established exactly when the user does.", "quantifier": "every history of the connection: packets, losses of the connection at any time, reconnects, disconnect() at any time, also from callbacks", "why_tests_cant": "The calls of the handlers stand beside the callbacks in five places; which of them is reached depends on the state in which disconnect() finds the connection, and tests disconnect established connections.", "anchors": ["source/client.c:s_mqtt_client_shutdown", "source/client.c:s_attempt_reconnect", "source/client_channel_handler.c:s_packet_handler_connack", "source/client_channel_handler.c:s_packet_handler_publish", "source/mqtt311_listener.c:aws_mqtt311_callback_set_manager_on_disconnect"]}
{"id": "C92", "title": "Every manual acknowledgement the user asks for is answered exactly once, with the right result", "statement": "The completion callback of each invocation of aws_mqtt5_client_invoke_publish_acknowledgement is called at most once, and exactly once by the time the connection has ended. An invocation is told at once that it is cancelled if its control was given out on an earlier connection and not invoked since, and that it is invalid if its control was never given out or has been invoked before; otherwise a PUBACK with the packet identifier of the publish is queued. Success is reported only if that PUBACK has been written out completely, on the connection on which the invocation was accepted.", "quantifier": "every history of an MQTT 5 client: publishes taken over and not, repeated publishes, invocations of any controls in any order and number, losses of the connection at any time, reconnects, stop and termination", "why_tests_cant": "The answer comes from three places - two tables of controls and the completion of the PUBACK operation - and which one applies depends on what happened to the connection since the publish; tests try each result once, on one publish.", "anchors": ["source/v5/mqtt5_client.c:s_mqtt5_manual_pub_ack_task_fn", "source/v5/mqtt5_client.c:aws_mqtt5_client_invoke_publish_acknowledgement", "source/v5/mqtt5_client.c:s_aws_mqtt5_client_queue_puback", "source/v5/mqtt5_options_storage.c:s_aws_mqtt5_operation_puback_manual_completion"]}
{"id": "C93", "title": "The websocket handshake of a 3.1.1 connection: one request per attempt, released once, with the user's callbacks called in order", "statement": "Attempts of an MQTT 3.1.1 connection to open a websocket never overlap. In each attempt one handshake request is made and released exactly once; the user's transformer, if set, is called once with it before the websocket is opened, and the websocket is opened at most once, with that request and only if the transformation succeeded. The user's validator, if set, is called at most once per attempt, and the websocket is used for MQTT only if it accepted the response. While a transformation, the opening of the websocket or the report of its failure is outstanding, the connection exists, holds a reference of itself, and the request has not been released, even if the user has disconnected and released the connection meanwhile; when the connection is destroyed every request has been released and no callback is outstanding.", "quantifier": "every history of a 3.1.1 connection with websockets, with and without transformer and validator: transformations that succeed or fail at any time, failures of every library call, disconnect and release at any time, reconnects", "why_tests_cant": "The transformer may complete on any thread and at any later time, while the user disconnects or drops the connection; tests complete it at once and reconnect rarely, and a leaked or overwritten request or a destroyed connection shows only in such interleavings.", "anchors": ["source/client.c:s_websocket_connect", "source/client.c:s_websocket_handshake_transform_complete", "source/client.c:s_on_websocket_setup", "source/client.c:s_on_websocket_setup_task_fn"]}
{"id": "C94", "title": "disconnect() of a 3.1.1 connection called on any thread touches no channel that is gone and closes only the connection it was called for", "statement": "A call of aws_mqtt_client_connection_disconnect on a thread other than the event loop uses no channel slot that has been removed, and the channel it closes is the one that was in use when the call was accepted: a connection that is established again after on_disconnect has been invoked is not closed by an earlier call.", "quantifier": "every interleaving of the steps of one call of disconnect() with the events of the connection: loss of the channel, on_disconnect, connect() by another thread, reconnects, requests, releases", "why_tests_cant": "The window is a few instructions between the critical section of disconnect() and the use of connection->slot; no test can make the channel shut down exactly there.", "anchors": ["source/client.c:s_aws_mqtt_client_connection_311_disconnect", "source/client_channel_handler.c:mqtt_disconnect_impl", "source/client_channel_handler.c:s_mqtt_disconnect_task", "source/client.c:s_mqtt_client_shutdown"]}
{"id": "C95", "title": "Operations of a 3.1.1 connection called on any thread return their own packet identifier, without touching freed memory", "statement": "A call of publish, subscribe, unsubscribe or resubscribe_existing_topics of an MQTT 3.1.1 connection on any thread that starts an operation returns the packet identifier of that operation, which is not 0 and not that of another operation that is not complete, and touches no memory that has been freed, whatever the event loop and other threads do before the call returns.", "quantifier": "every history of a 3.1.1 connection with any number of calls in progress on any threads, and any interleaving of their returns with the events of the connection", "why_tests_cant": "The window is between the scheduling of the task, or the release of the lock, and the return statement; tests would have to stop the calling thread there while the event loop sends and completes the operation.", "anchors": ["source/client_channel_handler.c:mqtt_create_request", "source/client_channel_handler.c:s_request_outgoing_task", "source/client_channel_handler.c:mqtt_request_complete"]}
{"id": "C96", "title": "DISCONNECT of a 3.1.1 connection is written once, only when disconnect() was called, and nothing follows it", "statement": "When an MQTT 3.1.1 connection is disconnected by disconnect(), a DISCONNECT packet is written to the channel before it is closed, unless the channel is already shutting down for another reason; DISCONNECT is written only if disconnect() was called, at most once on a channel, after the CONNECT of that channel, and no packet is written to that channel after it, whatever operations other threads are starting.", "quantifier": "every history of a 3.1.1 connection, with the shutdown of the write direction of its handler as a step of its own and any number of operations in progress on other threads", "why_tests_cant": "Between the shutdown of the MQTT handler and that of the socket there are tasks of the event loop; tests would have to stop a thread in publish() between the release of the lock and the scheduling of its task, and look at the bytes on the wire.", "anchors": ["source/client_channel_handler.c:s_shutdown", "source/client_channel_handler.c:s_mqtt_disconnect_task", "source/client_channel_handler.c:mqtt_create_request", "source/client_channel_handler.c:s_request_outgoing_task", "source/client.c:s_aws_mqtt_client_connection_311_disconnect"]}
