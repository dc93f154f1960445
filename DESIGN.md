# Design

Formal model of awslabs/aws-c-mqtt (pinned commit in /repo) in Lean 4. Nothing in /repo is
built or run; every definition of the model cites the file and lines it was read from.

## Method

* Each C function with logic becomes a total Lean function over lists, naturals and structures; a
  mutated object becomes a returned value. Aborts (`AWS_FATAL_ASSERT`) and undefined behaviour are
  distinct outcomes, never assumed away.
* Each property is stated against a small specification that does not use the model's helpers, in a
  file of its own under `Verif/Props/`.
* Where the code violates the property, the negation is proved on a concrete witness
  (`..._violated`) and the true part is kept as `..._partial`.

## Trusted base

* Lean 4.33.0 kernel; axioms `propext`, `Classical.choice`, `Quot.sound` only.
* The reading of the C source (the model is hand written).
* Assumed behaviour of aws-c-common / aws-c-io, which are not in this sandbox: byte cursors and
  buffers, hash tables as finite maps, LRU cache, linked lists, FIFO event-loop tasks, and memory
  allocation that never fails.

## Plan per property

* **C01 Remaining-length codec is a bijection on the legal range** — `Verif/FixedHeader.lean` models the encode/decode loops on byte lists (UInt8). Round-trip by induction on the digit loop; the missing upper bound in the encoder is shown by a counterexample, the positive half under `n < 2^28`.
* **C02 Remaining-length decoder is total and never over-reads** — Same model; case analysis of the bounded decode loop against a separate spec (`sum of 7-bit digits`).
* **C03 MQTT 3.1.1 packets survive encode then decode** — `Verif/Packets311.lean`: each encode/decode function over byte lists; round-trip theorem per packet type, and `length = header + remaining_length`.
* **C04 A malformed length prefix inside a 3.1.1 packet is rejected** — `s_decode_buffer` modelled with aws_byte_cursor_advance's real behaviour (no advance, empty result when too short). Negation with a concrete byte string, `_partial` for prefixes that fit.
* **C05 A 3.1.1 packet that was encoded successfully has a truthful header** — Encode functions modelled including ignored results; negation with an over-long filter, partial under 16-bit lengths.
* **C06 3.1.1 streaming decode does not depend on how the network chunks data** — `Verif/Decoder311.lean`: greedy path + state machine; show each call equals a byte-wise reference machine, so feeding is a monoid action.
* **C07 3.1.1 streaming decode delivers exactly the packets that were sent** — Corollary of C06's refinement plus framing lemma; sticky error by definition of the error state.
* **C08 Topic and topic-filter validity matches the MQTT grammar** — `Verif/Text.lean`: scanner model of s_is_valid_topic; equivalence with the grammar stated on `split`.
* **C09 3.1.1 incoming publish is delivered to exactly the matching subscriptions** — `Verif/TopicTree.lean`: trie model, recursion of publish; refinement to list of (filter, sub); negation for `a/#` on `a`, partial for the rest.
* **C10 3.1.1 subscription table behaves as a last-writer-wins map** — Same trie; abstraction to finite map; cleanup log.
* **C11 3.1.1 subscription table never references freed topic strings** — `Verif/TopicTree.lean`, `Verif/Lemmas/TopicStrings.lean`: nodes with explicit string handles and a free set; negation by the 5-step history; partial: histories where it holds.
* **C12 Aborted 3.1.1 subscription transactions leave no trace** — Transaction model with action list and rollback; `abs (rollback ...) = abs before`.
* **C13 Adapter subscription set: dispatch equals MQTT matching over the surviving filters** — `Verif/SubscriptionSet.lean`: ref-counted trie; refinement to map; matching incl. parent `#`.
* **C14 Rate limiter never lets more through than burst plus rate times elapsed time** — `Verif/RateLimiter.lean`: the arithmetic function by function, invariant by induction over polls/takes.
* **C15 Rate limiter does not lose fractional tokens** — Same, exact accounting invariant.
* **C16 Rate limiter wait time is sufficient and minimal** — Same, wait computation exactness.
* **C17 Outbound topic aliasing is transparent to the server** — `Verif/TopicAlias.lean`: LRU cache + resolver, server-side spec, simulation invariant.
* **C18 Inbound topic aliases resolve to the last topic registered** — Same file, inbound resolver refinement to a map.
* **C19 MQTT5 variable length integers round-trip and sizes agree** — `Verif/Vli5.lean`, `Props/C19.lean`.
* **C20 MQTT5 encoder output does not depend on output buffer sizes** — `Verif/Encoder5.lean`, `Props/C20.lean`: step list, resumable execution; invariants over buffer sequences.
* **C21 MQTT5 packet lengths announced are the lengths written** — `Verif/Encoder5.lean`, `Props/C22.lean`: length computations vs emitted bytes, per packet.
* **C22 MQTT5 outgoing packets mean what the user asked for** — `Spec/Wire5.lean` is a parser written from the MQTT 5 grammar and is the specification, `Spec/View5.lean` the ranges and the meaning of a view; `Props/C22.lean` has one theorem per packet.
* **C23 MQTT5 incoming packets are decoded faithfully** — `Verif/Decoder5.lean`: decode functions; the grammar of `Spec/Server5.lean` as specification; decoding equals reading by the grammar, then applying the properties (`decode_eq`).
* **C24 MQTT5 streaming decode does not depend on chunking and errors are final** — Streaming decoder; same method as C06.
* **C25 MQTT5 malformed server packets are rejected** — Negations with concrete packets for SUBACK/UNSUBACK; partial for the checks the decoder performs.
* **C26 MQTT5 client never sends a packet larger than the server's maximum packet size** — Model of the service loop (`Client5.lean`); the settings in force as a fold of the log; invariant `SizeInv` (`Lemmas/Client5Size.lean`) that every `started` packet is within the maximum plus the growth from packet id and alias. Negation for a first QoS 1 publish and for LRU aliases; partial for everything else, with bounds max+3 and max+7 for what exceeds it.
* **C27 MQTT5: every accepted operation completes exactly once** — `Verif/Client5.lean`: the whole client (queues, table, tokens, states, lifecycle events) with one transition per event loop callback; `Lemmas/Client5.lean` splits every callback into 22 kinds of elementary moves so that invariants are proved once per move; `Lemmas/Client5Held.lean`: multiset conservation invariant; `Props/C27.lean`: negation for the lost operation and partial.
* **C28 MQTT5: QoS1 publishes keep submission order across reconnects** — Done: `Lemmas/Client5Order.lean`, `Props/C28.lean`. Invariant: the QoS 1 publishes in the unacknowledged list, being written and in the queue have increasing numbers; relation of each to what the log says was sent, overall and since the last disconnect.
* **C29 MQTT5: packet ids in flight are unique** — Same model. `Lemmas/Client5Live.lean`, `Client5Track.lean`: the packet id table refers to the operations in flight; `Client5Ids.lean`: ids are handed out in order, so they are distinct until the counter comes round; `Client5Fresh.lean`: they are distinct on connections without resends; `Props/C29.lean`: both partial theorems and the negation (a history of 65535 reconnects, by induction).
* **C30 MQTT5: the server's receive maximum is respected and never aborts the client** — `Lemmas/Client5Window.lean`: tokens against the window rebuilt from the log; `Lemmas/Client5Faults.lean`: which events can abort; `Props/C30.lean` with negations.
* **C31 MQTT5: offline queue behaviour decides exactly which operations survive a disconnect** — `Props/C31.lean`: a disconnect and a CONNACK on the client model, exactly which operations are completed; submission while offline; order of the rest.
* **C32 MQTT5: a requested clean disconnect always progresses** — `Props/C32.lean`, lemmas in `Lemmas/Client5Drain.lean`: a measure (bytes and steps left in the encoder, plus the weight of the DISCONNECT) decreases with every unhindered run of the service task; other events of the phase only append to the queue or insert a PUBACK. The claim fails when a PUBACK is inserted: proved for a concrete history and every continuation.
* **C33 MQTT5: lifecycle events follow the documented order** — `Props/C33.lean` on the client model: the events accepted by a small automaton (`follow` in `Spec/Client5.lean`); negation by trace; partial when a stopped attempt is not started again.
* **C34 MQTT5: operation statistics equal the real counts** — `Lemmas/Client5Stats.lean`: a ledger relating the counters to the operations held and the log; `Props/C34.lean`.
* **C35 MQTT5: keep-alive detects a dead connection and never pings too rarely** — `Verif/Timing5.lean` (next service time and histories with clocks), `Verif/Lemmas/Client5Ping.lean`, `Verif/Lemmas/Client5Timer.lean`, `Verif/Props/C35.lean`: the service task is scheduled no later than the next ping and the ping deadline; partial with two negations.
* **C36 Reconnect delay stays within the configured bounds and grows exponentially** — `Verif/Reconnect.lean`, `Verif/Props/C36.lean`: delay arithmetic for both clients over histories of connections.
* **C37 MQTT5: manual PUBACK is sent at most once per acquired publish** — Done (partial): `Lemmas/Client5Manual.lean`, `Props/C37.lean`. What each move does to the two tables of manual acknowledgements and to PUBACK operations; every PUBACK sent is traced back through its queueing to a delivery or an accepted invocation on the same connection.
* **C38 MQTT5: negotiated settings are exactly CONNECT defaults overridden by the CONNACK** — `Verif/Negotiated5.lean`, `Verif/Props/C38.lean`: field-wise comparison with a table of MQTT 5 defaults, for any previous state; client id over any history.
* **C39 MQTT5: shared-subscription detection and IoT Core topic limits agree with their definitions** — `Verif/TopicUtils5.lean`, `Props/C39.lean`.
* **C40 MQTT5: listeners see every lifecycle event and publishes stop at the first taker** — `Verif/Callbacks5.lean`, `Verif/Props/C40.lean`: callback manager plus the listener objects and their event loop tasks; invariant tying the attached list to the references held.
* **C41 Request-response: at most one broker operation outstanding per topic filter** — `Verif/RrManager.lean` (whole of subscription_manager.c), `Spec/RrManager.lean` (who needs a filter, what the server has, from the log alone), `Lemmas/RrManager.lean` (`PInv`: one record against the log), `Lemmas/RrManagerInv.lean` (`foreach_ok`, `MInv`, `reachable_minv`), `Props/C41.lean` with a negation for shutdown.
* **C42 Request-response: subscription budgets are never exceeded** — Same invariant (`MInv`), `Props/C42.lean`.
* **C43 Request-response: no history of broker responses aborts the process** — Failed assertions and null records are outcomes of `Rr.step`; `step_ok`, `Props/C43.lean`.
* **C44 Request-response: each request completes exactly once** — `Verif/RrClient.lean` (request_response_client.c and request_response_subscription_set.c, on top of `Verif/RrManager.lean`), `Spec/RrClient.lean` (completions counted in the log), `Lemmas/RrClient*.lean` (`Inv`: references of each operation against waiting tasks and callbacks; `step_ok`, `reachable_inv`; `TInv`: heap and service time), `Props/C44.lean`: at most two in any history, at most one without late service runs, at least one before the client terminates, one by the timeout; negation by a history.
* **C45 Request-response: a request is published once all its subscriptions are in place** — `Lemmas/RrFed.lean` (every listener of an established subscription was told so, or acquired it established), `Lemmas/RrClientPublish.lean` (the count of missing subscriptions against the successes told and still waiting), `Props/C45.lean`: proved if all filters are new or all established; negation by histories.
* **C46 Request-response: responses are routed by topic and correlation token** — `Lemmas/RrClientStreams.lean` (where streams are listed), `Lemmas/RrClientRoute.lean` (what a publish adds to the log; nothing else adds responses or deliveries), `Props/C46.lean`: the token paths and filters are specified apart from the code (`Carries`, `Matches`); proved with the exceptions listed below, negation by histories.
* **C47 3.1.1 client: every operation completes exactly once** — `Verif/Client311.lean` (client.c and client_channel_handler.c as a state machine: API calls, tasks, packets, callbacks of the bootstrap; memory errors are faults), `Spec/Client311.lean` (the log alone), `Lemmas/Client311*.lean` (`Ctl`: what is going on; `Held`/`Store`: each request is in exactly one list, in the table, and accepted or completed in the log; `fault_cases`), `Props/C47.lean`. Histories end at a memory error; C53 says when these happen.
* **C48 3.1.1 client: packet ids of outstanding operations are unique and non-zero** — Same model; the search for a packet id is the loop with enough fuel (`searchId`), proved to find a free id if there is one. `Props/C48.lean`.
* **C49 3.1.1 client: interrupted operations are retried in submission order** — `Line`: in histories where tasks are run in order (`InOrder`) pending, ongoing and scheduled requests form one increasing list, so that each is sent on a channel after all earlier ones that are not completed. Negation by a trace. Partial.
* **C50 3.1.1 client: operation statistics equal the real counts** — `Tally`: the counters are the sums over the requests that are not completed and those cancelled for a clean session (a ghost collection). Exact without such cancellations. Negations by traces. Partial.
* **C51 3.1.1 client: each connect() gets exactly one completion callback** — `Lemmas/Client311Link.lean` (connects against answers), `Props/C51.lean`; two negations by histories.
* **C52 3.1.1 client: nothing is accepted from the server before CONNACK** — `Lemmas/Client311Link.lean` (what is acted upon when), `Props/C52.lean`; two negations by histories.
* **C53 3.1.1 client: a server acknowledgement can only complete the operation it acknowledges** — `Lemmas/Client311Sends.lean` (which requests were sent on which channel), `Lemmas/Client311Spec.lean`, `Props/C53.lean`: exact effect of acknowledgements that are in order; every memory error is due to one that is not; four negations.
* **C54 3.1.1 client: packets within protocol limits can always be sent** — Buffer-size arithmetic (`Props/C05.lean`, `Props/C54Exact.lean`); exact boundary at 16381; negations beyond it.
* **C55 MQTT5: an acknowledgement can only complete the operation kind it acknowledges** — `Lemmas/Client5.lean` (`Move.ack`): what an acknowledgement removes; `Props/C55.lean` with negations.
* **C56 MQTT5: options accepted at submission satisfy the protocol's static rules** — `Verif/Validate5.lean`, `Props/C56.lean`: validation functions against a declarative spec, as equivalences.
* **C57 SDK metrics in the user name keep what the user wrote** — `Verif/Metrics.lean`, `Props/C57.lean`: the user name is read by a declarative relation (last `?`, pieces, key and value) before and after.
* **C58 MQTT5: no event makes the client abort or run into undefined behaviour** — `Lemmas/Client5Faults.lean`: every fault outcome of a step has one of four causes; `Props/C58.lean` with negations.
* **C59 Request-response: no event makes the client abort or use a freed operation** — Faults are outcomes of `RrClient.stepAt`; `step_ok`, `Props/C59.lean`.
* **C60 3.1.1 client: a publish is marked as a duplicate exactly when it is sent again** — `Lemmas/Client311Sends.lean` (`initiated` against the log), `Props/C60.lean`.
* **C61 Request-response: a request is published at most once and not before its subscriptions are in place** — `Lemmas/RrOnce.lean` (what the manager tells is true and told once), `Lemmas/RrTakes.lean`, `Lemmas/RrClientDue.lean` (invariant `Due`), `Props/C61.lean`.
* **C62 3.1.1 client: a publish with QoS 0 is sent at most once and is not kept for later** — `Lemmas/Client311Brief.lean` (invariant `Brief`: what is not retried is in no list and has not been sent), `Props/C62.lean`.
* **C63 Adapter: every connect() is answered by exactly one on_connection_complete** — `Verif/Adapter.lean` (mqtt5_to_mqtt3_adapter.c over the MQTT 5 client of `Client5.lean`), `Spec/Adapter.lean` (the log alone), `Lemmas/AdapterLedger.lean` (calls against answers), `Lemmas/AdapterDrive.lean` (the adapter's state against the client's desired state when only the adapter drives the client), `Props/C63.lean`; two negations by histories. Partial.
* **C64 Adapter: every disconnect() is answered by exactly one on_disconnect** — `Lemmas/AdapterLedger.lean`, `Lemmas/AdapterHeld.lean` (`Waits`), `Props/C64.lean`; two negations by histories. Partial.
* **C65 Adapter: on_connection_complete reports the outcome of an attempt begun after that connect()** — `Lemmas/AdapterHeld.lean` (`Held`: what is open is closed or marked to be reset; `Fresh`: the order of notes in the log), `Props/C65.lean`; the negation for failures by a history. Partial.
* **C66 Adapter: ids of operations are valid and differ among operations in progress** — `Lemmas/AdapterTable.lean` (`TableInv`), `Lemmas/AdapterEnd.lean` (`findFree_full`), `Props/C66.lean`.
* **C67 Adapter: every accepted operation is answered exactly once, with the outcome of the packet sent for it** — `Spec/Adapter.lean` (`Event.asks`, `Becomes`, `Sent`, `Told`), `Lemmas/AdapterOps.lean` (calls against answers), `Lemmas/AdapterStems.lean` (where each entry of the table and each answer comes from), `Props/C67.lean`.
* **C68 Adapter: it lives as long as it is used, ends when released, and does not corrupt memory** — `Lemmas/AdapterRefs.lean` (reference counts against tasks and table), `Lemmas/AdapterClient.lean` (`good_fault`), `Lemmas/AdapterEnd.lean`, `Lemmas/AdapterStems.lean` (`run_nearer`), `Props/C68.lean`; negations by histories. Partial.
* **C69 Adapter: after disconnect() there is no connection until the next connect()** — `Spec/Adapter.lean` (`NoConnect`, `NoStart`, `Note.ofConnection`), `Lemmas/AdapterDown.lean` (`Down`, `Calm`), `Props/C69.lean`; the negation by a history. Partial.
* **C70 Adapter: what the server refuses is not reported as success** — `Lemmas/AdapterStems.lean`, `Props/C70.lean`; the negation for unsubscribe by a history. Partial.
* **C71 Adapter: publishes that arrive go to the subscriptions in effect, whose user data is alive** — `Spec/AdapterSubs.lean` (what operations ask of the set), `Lemmas/AdapterSubs.lean` (`Leads`, `SubsInv`: the set against the operations accepted), `Props/C13.lean`, `Props/C71.lean`; negations by histories. Partial.
* **C72 3.1.1 client: the callbacks that tell of the connection come in order and agree with its state** — `Spec/Client311Life.lean` (the order as an automaton), `Lemmas/Client311Life.lean` (invariant `Told`), `Props/C72.lean`; negations by histories. Partial.
* **C73 The request-response protocol adapter reports each operation once and rightly, and is silent once terminated** — `ProtocolAdapter.lean` (model with freed user data as a fault), `Spec/ProtocolAdapter.lean` (counts of reports and answers in the log; what is granted and what transient), `Lemmas/ProtocolAdapter.lean` (invariant `Inv`), `Props/C73.lean`. The clause on the event loop is violated; partial.
* **C74 Operations of the MQTT 5 client that are not acknowledged time out at their ack timeout** — `Spec/Stamps5.lean` (effects stamped with times; when an operation was last sent, what it was submitted with, when it times out), `Lemmas/Client5Ack.lean` (what moves do to operations in flight, heap and table), `Client5Due.lean` (`AckInv`: deadlines against stamps), `Client5Alarm.lean` (the service task is scheduled for the first deadline), `Client5Expire.lean` (the service task completes what is overdue), `Props/C74.lean`. The upper bound fails when packet ids in flight are shared; partial.
* **C75 The MQTT 5 client gives up a connection attempt whose CONNACK does not come within the CONNACK timeout** — `Options5.lean` (options to configuration), `Spec/Connack5.lean` (`Awaits`: since when a client waits; `connackWait`: the documented timeout), `Lemmas/Client5Connack.lean` (`ConnackInv`: deadline and schedule while waiting), `Props/C75.lean`.
* **C76 The options of an MQTT 5 client are checked, defaulted and sent in CONNECT as documented** — `Options5.lean` (validation and storage), `Spec/Options5.lean` (`Acceptable`, `Documented`, `Meant`, `resumes`), `Spec/Connect5.lean` (`joined`, `Later`), `Lemmas/Client5Connect.lean` (`ConnectInv`: every CONNECT held or started is made from the options; its clean start), `Props/C76.lean`.
* **C77 The server reads exactly the packets the MQTT 5 client sends** — `Spec/Stream5.lean` (a server that cuts a stream into packets and resolves aliases; what was begun and written), `Lemmas/Streamed5.lean` (encodings are prefix free; one PUBLISH), `Lemmas/Client5Stream.lean` (`StreamInv`: what was written and what the encoder still holds make up what was begun; the resolver agrees with the server), `Lemmas/Client5Rep.lean` (where the numbers of packets begun come from), `Props/C77.lean`, `Props/C77Inputs.lean` (the same from the ranges of what the client is given), `Lemmas/Client5Tame.lean` (where DISCONNECT packets and delivered publishes come from), `Props/C77Typed.lean` (the same with hypotheses on the calls of the user alone, for histories `ReachableBy ByTypes`).
* **C78 The MQTT 5 client sends CONNECT first and nothing after DISCONNECT** — `Lemmas/Client5Begin.lean` (`PlaceInv`: DISCONNECT packets queued or begun are at most one, and none before the clean disconnect state; a CONNECT is queued only while nothing has been begun, or will fail validation), `Props/C78.lean`.
* **C79 The MQTT 5 client uses topic aliases as its options say** — `Spec/Aliases5.lean` (aliases granted, topics published), `Spec/Lru.lean` (topics by last use), `Lemmas/TopicAliasLru.lean` (the keys of the cache), `Lemmas/Client5Alias.lean` (the resolver is a function of the history), `Props/C79.lean`, `Props/C79Calls.lean` (the same with hypotheses on options and calls alone).
* **C80 3.1.1 client: pings keep the connection alive and detect a dead one** — `Verif/KeepAlive311.lean` (one channel of a connection with times), `Spec/KeepAlive311.lean`, `Lemmas/KeepAlive311*.lean` (invariants on the last sign of life, on pings and on timers), `Props/C80.lean`.
* **C81 MQTT 5 packets are stored as exact copies that need no memory of the caller** — `Verif/Storage5.lean` (memory, cursors, buffers and storing of each packet), `Spec/Storage5.lean` (what a view says in a memory), `Lemmas/Storage5.lean` (one step of copying after another), `Props/C81.lean`.
* **C82 3.1.1 client: each attempt uses the options that were set** — `Verif/Options311.lean` (the options of a connection and its states), `Spec/Options311.lean` (what was asked for, from accepted calls alone), `Lemmas/Options311.lean` (the options are what was asked for), `Props/C82.lean`.
* **C83 3.1.1 client: subscriptions in effect are those that were asked for** — `Verif/Subs311.lean` (requests, the table and reference counts), `Spec/Subs311.lean` (subscriptions in effect, from the log alone), `Lemmas/Subs311.lean` (the table is what the log says), `Lemmas/Subs311Strings.lean` (which strings are alive), `Lemmas/Subs311Log.lean`, `Props/C83.lean`.
* **C84 3.1.1 client: on_publish_ud_cleanup is called once, at the right time** — `Verif/Subs311.lean`, `Spec/Subs311.lean`, `Lemmas/Subs311Refs.lean` (each reference is held by the table or by a request), `Lemmas/Subs311Log.lean`, `Props/C84.lean`.
* **C85 3.1.1 client: operations time out after protocol_operation_timeout_ms, and not earlier** — `Verif/Timeout311.lean` (requests and timeout tasks with the pointers between them), `Spec/Timeout311.lean` (when an operation was sent and which timeout was configured, from the log), `Lemmas/Timeout311.lean` (the pointers are mutual, each waiting request has its task), `Lemmas/Timeout311Log.lean` (requests and log agree), `Props/C85.lean`.
* **C86 3.1.1 listeners get the events of their connection from when they are attached until they terminate, and keep it alive** — `Verif/Listener311.lean` (listeners, callback sets and tasks), `Spec/Listener311.lean` (what the log says), `Lemmas/Listener311.lean` and `Lemmas/Listener311Log.lean` (invariants), `Props/C86.lean`.
* **C87 Adapter: sockets and CONNECTs use the options of connect() and the setters** — `Verif/AdapterOptions.lean` (stored configuration, queue of calls, attempts), `Spec/AdapterOptions.lean` (what was asked for, from the log of calls alone), `Lemmas/AdapterOptions.lean` (the configuration is what was asked for; sockets and `should_reset_connection`), `Lemmas/MetricsTwice.lean` (metrics added twice), `Props/C87.lean`.
* **C88 MQTT5: a client that is released ends once, when nothing uses it any more** — `Verif/Life5.lean` (references, tasks, service, websocket handshake, connection), `Spec/Life5.lean` (what the log alone tells), `Lemmas/Life5.lean` (invariant; the log and the state), `Props/C88.lean`.
* **C89 3.1.1 client: a connection is never stuck, and connect() and disconnect() are answered** — `Spec/Progress311.lean` (steps that carry a connection on, histories that count them), `Lemmas/Progress311.lean` (a rank that each of them lowers), `Lemmas/Progress311Run.lean` (histories), `Props/C89.lean`.
* **C90 3.1.1 client: disconnect() cancels all operations** — `Verif/Client311.lean`, `Lemmas/Cancel311.lean` (what is in the lists when a clean session is shut down is completed before the end), `Lemmas/Keep311.lean` (persistent sessions cancel nothing), `Props/C90.lean`.
* **C91 3.1.1 listeners are told of messages, connections, interruptions and disconnects as the callbacks of the connection are** — `Verif/Notify311.lean` (the calls of the callback set manager, beside `Verif/Client311.lean`), `Spec/Notify311.lean` (what is to be told), `Lemmas/Notify311.lean`, `Props/C91.lean`.
* **C92 Every manual acknowledgement the user asks for is answered exactly once, with the right result** — `Verif/ManualAck5.lean` (which operation carries the completion options of which invocation, beside `Verif/Client5.lean`), `Spec/ManualAck5.lean` (how a control stands, going by the log), `Lemmas/ManualAck5.lean`, `Props/C92.lean`.
* **C93 The websocket handshake of a 3.1.1 connection: one request per attempt, released once, with the user's callbacks called in order** — `Verif/Websocket311.lean` (the handshake beside `Verif/Client311.lean`), `Spec/Websocket311.lean` (the courses an attempt may take), `Lemmas/Websocket311.lean`, `Props/C93.lean`.
* **C94 disconnect() of a 3.1.1 connection called on any thread touches no channel that is gone and closes only the connection it was called for** — `Verif/Disconnect311.lean` (the call in three steps beside `Verif/Client311.lean`), `Lemmas/Disconnect311.lean`, `Props/C94.lean`. Negations by traces; what holds if the call is not overtaken.
* **C95 Operations of a 3.1.1 connection called on any thread return their own packet identifier, without touching freed memory** — `Verif/Return311.lean` (the return of `mqtt_create_request` as a step of its own beside `Verif/Client311.lean`), `Props/C95.lean`. Negations by traces; what holds as long as the operation is not complete.
* **C96 DISCONNECT of a 3.1.1 connection is written once, only when disconnect() was called, and nothing follows it** — `Verif/Courtesy311.lean` (the shutdown of the handler and the wire beside `Verif/Client311.lean`), `Lemmas/Courtesy311.lean`, `Props/C96.lean`. Invariant over histories; negation by a trace.

## What the assumed libraries do in the model

* `aws_byte_cursor_next_split` is the usual split: n separators give n+1 pieces.
* `aws_byte_cursor_advance(cur, n)` with n larger than the cursor returns an empty cursor and does not
  advance; `aws_byte_cursor_read_*` fail without consuming; `aws_byte_buf_write*` write all or nothing.
* `aws_decode_utf8` accepts exactly well-formed UTF-8 (RFC 3629) whose code points its callback accepts.
* A hash table is a finite map. Where C code depends on its iteration order the model takes the order
  as an arbitrary parameter (`pick` in `TopicTree.lean`).
* `aws_channel_acquire_message_from_pool(size)` gives a message of capacity min(16384, size).
* MQTT 5 client (`Verif/Client5.lean`): one transition is one callback or task of the event loop. `Enabled` says when
  an event can happen; packets come from the decoder, so their numbers fit their types (`inRange`). Errors of the
  socket, rate limiter waits and clock readings are arbitrary inputs (`Env`). `Verif/Timing5.lean` adds the time for
  which the service task is scheduled and lets it be late by a constant; time never goes back. Deadlines (ack timeout,
  CONNACK, ping) are natural numbers: the sum of the clock and a timeout does not wrap at 2^64. Among equal deadlines the
  heap gives the operation sent first; the C heap may give another.
* Client options (`Verif/Options5.lean`): validation and storage (mqtt5_options_storage.c:3400-3483, 3842-4055) give the
  configuration of the client. Port validation (aws-c-io) and the new UUID are parameters. TLS, proxy strategy, host
  resolution and websocket options are not modelled.

* Request-response subscription manager (`Verif/RrManager.lean`): one transition is one call. The protocol adapter
  accepts or refuses each subscribe and unsubscribe arbitrarily (`Env`); only what was issued completes, at any time
  later (`Enabled`). Hash tables may change their iteration order between any two calls (`Rehash`). The manager's
  callbacks only schedule tasks (request_response_client.c:740-767), so they do not call back.
* Request-response client (`Verif/RrClient.lean`): one transition is a call of the user, one task of the event loop, the
  service task, or one notification of the protocol adapter. Tasks that are due run in any order, except that the client is
  initialized first; this includes the FIFO order of the real event loop. Freed operations are absent from `ops` and their
  use is a fault. The protocol adapter is not part of this model (it has its own, `Verif/ProtocolAdapter.lean`): each of its
  calls succeeds or fails arbitrarily (`Env`), and its completions and notifications come in any order until it terminates (`Enabled`). The JSON
  parser is not modelled: a publish comes with its parsed payload, and the comparison of member names is a parameter.
  Reference counts of the client are not modelled (it terminates when nothing that holds a reference is left), nor
  allocation failures, nor failing hash tables. Calls a user makes from inside a callback are made after the event.
* 3.1.1 connection (`Verif/Client311.lean`): one transition is an API call, a task of the channel or event loop, a packet
  from the server or a callback of the channel bootstrap. Critical sections are atomic; `s_mqtt_client_shutdown` and
  `connect` are cut where they invoke callbacks without holding the lock, and API calls come in between. A callback and the
  removal of its request in `s_request_outgoing_task` and `mqtt_request_complete` are one transition. Requests are named by
  their order; the lists are lists of names, and removing a name that is in no list is a memory error, as is freeing a
  request whose task is scheduled. Outgoing tasks run in any order; tasks of a channel that is shut down are cancelled at any
  time. Whether packets can be encoded and sent is arbitrary (`Sending`). Timeouts, the ping task and the loss of the channel
  are events that may come at any time. Not modelled: contents of packets, subscriptions (see C15–C17), times (C36),
  TLS, allocation failures. With websockets, the transformation of the handshake request by the user (on any thread), the opening
  of the websocket, its conversion and the validation of the handshake response (client.c:1488-1695) are an attempt to set up a
  channel that succeeds, fails, or gives a channel that is closed at once (`Setup.refused`). Known problems outside the model: `mqtt_create_request` reads the packet id of the
  request after its task is scheduled (client_channel_handler.c:1005-1010), when another thread may have completed and freed
  it (see C95); `disconnect` reads `slot` without the lock (see C94); a repeated CONNACK initializes the scheduled ping task again; a failure to
  copy the TLS options leaves the state CONNECTING; the second message of a long publish is not checked for NULL
  (client.c:3237); on a retry `s_resubscribe_send` initializes its list of topics again without freeing it.
* Storage of MQTT 5 packets (`Verif/Storage5.lean`): memory is a map from blocks to bytes, a cursor a block, an offset and a
  length; reading outside a block is a distinct outcome. The order of copies and the sizes are those of
  mqtt5_options_storage.c:20-132, 638-824, 894-1066, 1434-1501, 1926-2044, 2177-2224, 2485-2560, 2869-2950, 3080-3151 and
  3223-3298. Arrays and scalars of a stored view are in the storage structure and are values here. `_from_external_storage`
  (views of packets the decoder is at) are not modelled. This is what the other models of operations (which take packets as
  values) rest on.
* Options of a 3.1.1 connection (`Verif/Options311.lean`): the fields that setters and `connect()` write and that CONNECT and the
  bootstrap are given, in the five states. TLS options are numbers, without the server name that is filled in from the host
  name. `s_mqtt_client_init` and `s_mqtt_client_connect` read the fields without the lock; each is one step (`C82_stable` shows
  that no other step could change them meanwhile). A connection that cannot begin is a parameter. Websockets, proxies, socket
  options and failing copies are not modelled; `set_will` is called with a payload that is not NULL.
* Options of the adapter (`Verif/AdapterOptions.lean`): connect(), set_will, set_login, set_metrics and set_reconnect_timeout of
  mqtt5_to_mqtt3_adapter.c with their checks and tasks, `aws_mqtt5_client_reset_connection`, and what the client opens sockets and
  builds CONNECTs from. Allocations and copies of TLS options succeed; websockets, proxies and host resolution are not modelled.
  When the client and the adapter change state is not decided here: a state may change whenever the code that changes it could run,
  which includes all histories of `Verif/Adapter.lean`.
* Lifetime of an MQTT 5 client (`Verif/Life5.lean`): `aws_mqtt5_client_acquire`/`release`, the zero-count callback, the tasks that hold a
  reference (changes of the desired state, submissions, PUBACKs, completed handshake transformations), `s_reevaluate_service_task`, the
  service task with the states it moves between, websocket and socket set-up and shut-down callbacks, and the final destruction. What
  operations do is reduced to whether they need service and whether they end the connection; MQTT_CONNECT and CONNECTED are one phase,
  as are CLEAN_DISCONNECT and CHANNEL_SHUTDOWN. The event loop runs tasks in order, then those whose time has come, and tasks scheduled
  meanwhile in the next turn (aws-c-common). `aws_ref_count_acquire` of a count that is 0 is recorded, not treated as a crash.
* Progress of a 3.1.1 connection (`Verif/Spec/Progress311.lean`, on the model `Verif/Client311.lean`): `Event.moves` names the
  events that come without the user and the server, `Run` counts them in a history. That the event loop runs what is
  scheduled, that the bootstrap calls back, that a channel which is shutting down calls back, and that a channel without
  CONNACK is shut down (`s_connack_received_timeout`, the event `close`) is assumed; the theorems say how many of these
  events there can be before the next answer, and that there is always a next one.
* What a 3.1.1 connection passes on to its listeners (`Verif/Notify311.lean`): the five calls of `aws_mqtt311_callback_set_manager_on_…` (client.c:405, 444, 453, client_channel_handler.c:266, 297), as a function of the event and the state of `Verif/Client311.lean` before it. Arguments are left out.
* Completion of manual acknowledgements (`Verif/ManualAck5.lean`): the results `s_mqtt5_manual_pub_ack_task_fn` (mqtt5_client.c:2504-2586) and
  `s_aws_mqtt5_operation_puback_manual_completion` (mqtt5_options_storage.c:2294-2325) give to the completion callbacks, and which PUBACK
  operation has the completion options of which invocation, beside the log of `Verif/Client5.lean`. Not modelled: invocations whose task is
  cancelled because the event loop is destroyed (2511-2513; they call nothing), and that making the PUBACK operation fails (2542-2546).
* Websocket handshake of a 3.1.1 connection (`Verif/Websocket311.lean`): `s_websocket_connect`, `s_websocket_handshake_transform_complete`,
  `s_on_websocket_setup` and its task (client.c:1500-1695), beside `Verif/Client311.lean`. The HTTP message is its number. Assumed: use_websockets
  is called before the first connect(); the user completes each transformation at most once, with the request given; of aws-c-http, that
  `aws_websocket_client_connect` is followed by one setup callback if it succeeds and by none if it fails; an error is never reported with the code 0. Not modelled:
  the contents of the request, proxy options, TLS options and the websocket after it has been set up.
* disconnect() of a 3.1.1 connection on any thread (`Verif/Disconnect311.lean`): client.c:1983-2018 with `mqtt_disconnect_impl`
  (client_channel_handler.c:1104-1114) as three steps - the critical section, the test of `slot`, its use - between which the events of
  `Verif/Client311.lean` happen. One thread makes such calls, and holds a reference while it does. The window within an expression (the slot is read, then
  freed, then dereferenced) is part of the third step.
* The return of `mqtt_create_request` (`Verif/Return311.lean`): client_channel_handler.c:1010 as a step of its own; all before it is the event
  `create` of `Verif/Client311.lean`, so that the gap between the release of the lock (996) and the scheduling of the task (1005) is not
  modelled, nor what `publish` and the others do with the identifier.
* DISCONNECT (`Verif/Courtesy311.lean`): `s_shutdown` (client_channel_handler.c:637-687) for the write direction, and what each event writes
  (one item for each event that sends something; the bytes are in `Packets311.lean`). Trusted: tasks scheduled on the event loop run in the order in which
  they were scheduled; only the first `aws_channel_shutdown` counts and its error code reaches `s_shutdown`; the read direction is shut down
  first, and nothing is read afterwards; between the shutdown of the MQTT handler and that of the socket other tasks of the
  channel may run, and what they write is sent. `close` has an error (a lost connection, timeouts, a refused CONNACK); a shutdown without an error from
  elsewhere, such as a graceful end of TLS, is the event `gone`. Left out: a failure to acquire or encode the message, and the release of the
  last reference while connected, which schedules the same task (client.c:931; a fault in `Client311.lean`).
* Listeners of a 3.1.1 connection (`Verif/Listener311.lean`): all of mqtt311_listener.c: creation, references, the initialize and
  the terminate task, and the callback set manager with its list. The connection is its reference count; an event is a call of
  `aws_mqtt311_callback_set_manager_on_…` on the event loop while the connection holds a reference of itself (from connect()
  until it is disconnected); where these calls are made is `Verif/Notify311.lean`. The list is iterated one entry at a
  time, and anything a user can call may happen between two entries; tasks run in order, not while an event is passed on, and
  are not cancelled. A use of a listener or connection that is gone is a distinct log entry. The termination callback of the last
  listener runs after the last reference of the connection was released, as in the code.
* Operation timeouts of a 3.1.1 connection (`Verif/Timeout311.lean`): connect() as far as it sets the timeout, the requests of
  all kinds of operations as far as their timeout goes, `s_schedule_timeout_task`, `s_request_timeout` when run and when
  cancelled, completion, and the end of a channel. The pointers between a request and its timeout task are numbers, and a use
  of one that is gone is the entry `invalid` in the log. Time passes in any steps; a task that is due may be run late. Not
  modelled: what is in the packets, when packets are sent (C47-C53), and acknowledgements for packets that were not sent.
* Subscriptions of a 3.1.1 connection (`Verif/Subs311.lean`): the calls, their requests, the table of `Verif/TopicTree.lean`
  with its strings, and the reference counts of topics. A request may be sent, sent again, answered or given up at any time;
  when this happens is in `Verif/Client311.lean`. Packet ids are replaced by numbers that are not used again. Whether a packet
  can be made and encoded is arbitrary. Not modelled: threads (resubscribe_existing_topics() reads the table on the caller's
  thread), the list that leaks when its packet is sent again, failing allocation, and listeners.
* Time on a 3.1.1 connection (`Verif/KeepAlive311.lean`): one channel, from CONNECT until it is shut down, beginning with any
  requests, `next_ping_time` and `waiting_on_ping_response` left from earlier channels. Times are natural numbers, the event
  loop is prompt (the clock stands while a task is due) and packets that are to be sent are sent. Scheduling a scheduled task is
  a fault. What requests do otherwise is in `Client311.lean`.
* Adapter (`Verif/Adapter.lean`): mqtt5_to_mqtt3_adapter.c over the MQTT 5 client of `Client5.lean`. One transition is an API
  call, one task of the adapter, or one event of the client; what the client emits in an event is handed to the adapter's
  callbacks in the same transition, lifecycle events first. Tasks of the adapter run in order, in any mix with the client's
  events. Everything the client can do and everything that can be done to the client directly is included (`Exclusive`
  restricts to the adapter's own use where a theorem needs it). Reference counts, the table of operations, the listener and
  the subscription set are modelled; use of a NULL pointer or of freed memory is a fault. Allocation does not fail. Not
  modelled: the setters of handlers, will, login, proxy, websockets, host resolution, metrics and reconnect timeouts, TLS,
  statistics, and a second adapter or other listener on the same client.

## Where the code disagrees with a property

Each item is proved in Lean as a `_violated` theorem.

* **C01** `aws_mqtt_fixed_header` encoding: no upper bound check, lengths of 2^28 and above are written with
  five or more digits instead of being refused (fixed_header.c).
* **C03** setting the will of a CONNECT twice counts both wills' sizes, so the packet announces more bytes
  than it has (packets.c:201).
* **C04** `s_decode_buffer` ignores that the length prefix is larger than the rest: PUBLISH and SUBSCRIBE
  bodies with an over-long prefix decode successfully with an empty string (packets.c).
* **C05** SUBSCRIBE/UNSUBSCRIBE ignore the result of writing a filter: a filter above 65535 bytes gives a
  packet shorter than its header says (packets.c).
* **C54** packets whose body exceeds 16381 bytes do not fit the channel message: CONNECT fails, UNSUBSCRIBE
  is sent truncated (client_channel_handler.c:726-743).
* **C09** filter `a/#` does not receive topic `a` (topic_tree.c:878-888).
* **C11** use after free in topic_tree.c: (a) unsubscribing `a/b` above `a/b/c`, adding `a/d`, and
  unsubscribing `a/b/c` destroys node `a/b` (434) which owned the string node `a` still uses; (b) a
  SUBSCRIBE naming a filter twice leaves the node's level pointing into the string freed at 362-364.
* **C14, C15** rates above 18446744073 tokens per second: the product with the part of a second saturates
  (rate_limiters.c:90,113) and the sum wraps (96, 104, 115), so tokens come in a burst at the end of a second
  or get lost. The client itself only uses rates of 100 and 524288.
* **C14** "at most burst plus rate times elapsed" without the extra token is false for any bucket of this kind
  that counts whole tokens since its reset (`C14_tight`); the property states the exact bound.
* **C16** if the clock goes backwards the wait counts from the latest clock value seen.

* **C21**: the length of a PUBLISH is computed from `packet_id != 0` (mqtt5_encoder.c:762) while the encoding
  depends on `qos != 0` (892). The two agree for every operation of the client (identifiers are assigned to
  QoS 1 and 2 before encoding and refused for QoS 0), so C21 is stated for such views;
  `C21_identifier_needed` shows that the encoder alone does not ensure it. Lengths are cast to 32 bits: views of
  4 GiB or more would announce a wrong length, but the client asks for the encoded size first, which refuses
  more than 268435455 (hypothesis `SizeKnown`).

* **C22** a CONNECT with a user name that is present and empty (legal, accepted by validation) is stored and sent
  without user name (mqtt5_options_storage.c:704, mqtt_iot_metrics.c:666): `C22_violated_username`.
* **C39** `$share` is compared without regard to case (mqtt5_utils.c:489), so the ordinary filter `$SHARE/g/a` counts
  as shared and No Local is refused for it: `C39_violated`.
* **C56** a subscription identifier of 0 is accepted and sent (mqtt5_options_storage.c:2788), which MQTT 5 3.8.2.1.2
  calls a protocol error: `C56_violated_identifier`. DISCONNECT reason codes reserved to servers are accepted
  (1292): `C56_violated_reason`. Response topics, correlation data and content types of exactly 65535 bytes are
  legal but refused (`PublishLimits`).
* **C57** computing the size of a CONNECT asks for the length of the user name with metrics without a buffer
  (mqtt5_options_storage.c:653); if it exceeds 65535 bytes the error path calls `aws_byte_buf_clean_up(NULL)`
  (mqtt_iot_metrics.c:523): `C57_violated`. Metrics that contain `?` or `&` themselves change how the user name is
  read; C57_kept excludes them.
* **C25** flags of SUBACK and UNSUBACK are not looked at, and a property length past the end of the packet makes
  `aws_byte_cursor_advance` return an empty cursor without advancing, so the property bytes become reason codes
  (mqtt5_decoder.c:711-768, 810-885): `C25_violated_flags`, `C25_violated_length`. PUBLISH with QoS 3 is
  delivered (465): `C25_violated_qos`. Repeated properties are accepted, the last one counts (not part of C25).
* **C36** (`C36_violated_decorrelated`, `C36_violated_cap`, `C36_violated_overflow_311`, `C36_violated_bounds_311`). `current_reconnect_delay_ms` is only ever set by `aws_mqtt5_client_reset_connection` (the 3.1.1 adapter); after that, DECORRELATED jitter may choose up to three times the minimum for the first delay, and before that DECORRELATED is the same as FULL. The 3.1.1 client adds the delay to the clock with a wrapping addition (source/client.c:76), so asking for a delay of `UINT64_MAX` seconds reconnects immediately; and it accepts a minimum above the maximum.
* **C38** (`C38_violated_client_id`). `apply_client_id` keeps the id the client sent even if the CONNACK assigns another one.
* **C27** (`C27_violated`). An operation that validation accepts but that cannot be set up for encoding (a topic alias above the server's maximum, mqtt5_client.c:3392-3395) has been taken from the queue (3374) and is neither put back nor completed: its completion callback is never called and its memory is lost.
* **C29** (`C29_violated`). `aws_mqtt5_operation_bind_packet_id` (2761-2785) only looks at the table of operations in flight. A resent QoS 1 publish keeps the packet id of an earlier connection while it waits in the queue, so after the counter has come round a subscribe sent before it can get the same id. Both are in flight with one id; the later one takes the table entry.
* **C34** (`C34_violated_size`, `C34_violated_count`). The size of an operation is computed once, at submission (3704-3709), when the packet id of a PUBLISH is still 0 and not counted by the encoder (mqtt5_encoder.c:762): the reported sizes of QoS 1 publishes are 2 bytes short. An operation too large to be encoded is accepted and queued, but not counted.
* **C30** (`C30_violated_abort`, `C30_violated_window`). Flow control looks at the head of the queue (3330-3350); when that operation then fails the check against the negotiated settings, the inner loop takes the next one without looking (3358-3400), and a QoS 1 publish taken with no token left fails the assert at 3657. A PUBACK for an id that is not in flight still gives back a token (3631-3641), so a server that repeats acknowledgements gets more publishes than its receive maximum.
* **C55** (`C55_violated_puback`, `C55_violated_suback`). `aws_mqtt5_client_operational_state_handle_ack` finds the operation by packet id only: a PUBACK completes a SUBSCRIBE as if it had succeeded, and a SUBACK for a PUBLISH calls the publish callback with the wrong type (undefined behaviour).
* **C58** (`C58_violated_disconnect`, and those of C30 and C55). A DISCONNECT received in CLEAN_DISCONNECT before the connection was established (the user stopped the client while it waited for the CONNACK) fails the assert at 358, because the lifecycle state is still CONNECTING.
* **C33** (`C33_violated`). `s_aws_mqtt5_client_shutdown_channel` emits the final lifecycle event before it looks at the state (685-696). Stopping the client with a DISCONNECT while the channel is being set up reports CONNECTION_FAILURE at once, although the attempt goes on; if the user starts the client again before the setup is done, the next event is CONNECTION_SUCCESS without ATTEMPTING_CONNECT. (Without a DISCONNECT nothing is emitted before the setup is done.)
* **C35** (a) The deadline for a PINGRESP is set anew by every PINGREQ written (3280-3298), without looking at a deadline that is already there. When a PINGREQ waited in the queue for a slow write, the next one comes less than half an interval later and moves the deadline of the first. `C35_violated_extended`. (b) The deadline is set when a PINGREQ has been encoded, and nothing is encoded while a write is pending (3335-3338, 3153-3155). When the socket does not complete a write, PINGREQ packets pile up in the queue and the client stays connected. `C35_violated_blocked`.
* **C32** is violated (`C32_violated`): in CLEAN_DISCONNECT the client still queues a PUBACK for an incoming QoS 1 PUBLISH (mqtt5_client.c:1947-1952) and `s_aws_mqtt5_client_queue_puback` puts it before the DISCONNECT (1851-1866). `s_aws_mqtt5_client_has_pending_operational_work` (3122-3149) then sees no DISCONNECT at the head of the queue, so nothing is serviced and no service time is computed: the client waits until the peer or the network closes the connection. A DISCONNECT that fails validation against the negotiated settings is not written either; the channel is closed at once (end of the phase).
* **C37** A QoS 1 publish that repeats, on the same connection, a packet identifier whose acknowledgement the user has taken over and not given, and which the user does not take over, gets no PUBACK of its own (mqtt5_client.c, `aws_mqtt5_client_on_publish` path: the automatic PUBACK is skipped whenever the packet identifier is in the table); a conforming server does not send it (`C37_violated_repeated`).
* **C26** The size check (mqtt5_options_storage.c:267-311, called from mqtt5_client.c) runs on the packet before its packet id is bound and before the LRU resolver adds a topic alias. A QoS 1 publish of exactly the maximum size is sent two or three bytes too large (`C26_violated_packet_id`), with LRU aliases also a QoS 0 one (`C26_violated_alias`). At most seven bytes are added (`C26_any`).
* **C41** (`C41_violated_shutdown`). `aws_rr_subscription_manager_clean_up` sends an unsubscribe for a filter whose subscribe is not completed (subscription_manager.c:122-131), as its comment says.
* **C44** (`C44_violated`). `s_check_for_operation_timeouts` (request_response_client.c:1147-1173) completes a request that is still in the queue and leaves it there; `s_process_queued_operations` in the same service run takes it from the queue, and if its subscription has to be made sets its state to PENDING_SUBSCRIPTION (1286-1288), so that a publish on its response topic with its correlation token completes it again before the task that frees it runs. Two requests without correlation token, the first one unanswered, are enough. If the subscription is already there, the request is published after its timeout was reported.
* **C45** (`C45_violated`, `C45_violated_repeated`). A request starts with `pending_subscriptions` equal to the number of its filters, and if at least one of them is not established yet it waits for as many successes (request_response_client.c:1285-1288), but a filter that is established already never reports a success (request_response_client.c:624-649, 1281). A second request for the same two filters that is taken from the queue between their two SUBACKs is never published and times out. The same happens to any request that lists one filter twice.
* **C46** (`C46_violated_topic`, `C46_violated_path`, `C46_violated_token`, `C46_violated_parent`). The table of response topics and the table of correlation tokens are not connected: a publish on a response topic of one request completes another request if it carries its token. Only the token path of the first request that registers a response topic is used, for all requests with that topic (request_response_subscription_set.c:175-194). Without a token path the empty token is looked up, so a request with a token is not completed. A stream with the filter `a/#` does not receive publishes on `a`: the code asks for a level where `#` stands. Filters beginning with a wildcard are also matched with topics beginning with `$` (not part of the claim).
* **C51** (`C51_violated`, `C51_violated_connack`). If CONNECT cannot be encoded or sent, s_mqtt_client_init invokes on_connection_complete and shuts the channel down (client.c:710-719); s_mqtt_client_shutdown then invokes it again for a first connect, and on a reconnect nothing tells the user that the failure is not final. A second CONNACK on a connection that is established invokes it again (client_channel_handler.c:247-256) and initializes the scheduled ping task a second time.
* **C52** (`C52_violated`, `C52_violated_pingresp`). s_validate_received_packet_type asks for the state CONNECTING (client_channel_handler.c:121). On a reconnect the state is RECONNECTING, so PUBLISH, SUBACK and so on are acted upon before CONNACK. The handler of PINGRESP does not ask at all.
* **C53** (`C53_violated_kind`, `C53_violated_unsent`, `C53_violated_memory`, `C53_violated_suback`). mqtt_request_complete finds the request by packet id alone: a PUBACK completes a subscription, and, before CONNACK on a reconnect, a publish that was never sent. If the task of the request is still scheduled it is freed and later run, and `aws_linked_list_remove` is applied to a node in no list. s_packet_handler_suback casts the user data of any request to `struct subscribe_task_arg`. All are in the hands of the server.
* **C49** (`C49_violated`). When a channel is shut down its tasks are cancelled first, and their requests are appended to pending_requests_list; only then s_mqtt_client_shutdown moves the ongoing requests, which are older, behind them (client.c:309-310). After the reconnect a request that had not been sent goes before one that had.
* **C50** (`C50_violated`, `C50_violated_unacked`). Requests cancelled for a clean session (client.c:359-384, 1846-1879) are removed without a change of the statistics: incomplete (and unacked) counters never return to zero. A request that has been sent, and whose repeated task is cancelled, is set back to "incomplete" only and no longer counted as unacknowledged (client_channel_handler.c:779-785).
* **C63** (`C63_violated_stopped`, `C63_violated_released`). on_connection_complete is lost when the MQTT 5 client is stopped other than through the adapter while a connect() waits and connect() is called again: the stored callback is overwritten. It is also lost when the adapter is released while it waits: the adapter is terminated without invoking it.
* **C64** (`C64_violated_early`, `C64_violated_released`). connect() and disconnect() before the client's service task has run: the client is still stopped, so that it reports no stop, and on_disconnect is not invoked until the next connect(). on_disconnect is also lost when the adapter is released before the client has stopped.
* **C65** (`C65_violated_failure`). disconnect() during an attempt and connect() before the old channel is closed: its shutdown is reported as a connection failure and answers the new connect(), though no new attempt has begun.
* **C68** (`C68_violated_socket`, `C68_violated_abort`). connect() checks socket options only if they are given, then copies them through the pointer (mqtt5_to_mqtt3_adapter.c:246): without them it dereferences NULL. Operations that the adapter accepts can abort the program in the client's service task (C30).
* **C69** (`C69_violated`). When the first attempt of a connect() fails, the adapter considers itself disconnected but leaves the MQTT 5 client connecting; disconnect() is then answered at once and does not stop the client either (mqtt5_to_mqtt3_adapter.c:512-518), which goes on to connect.
* **C70** (`C70_violated_unsubscribe`). The completion of an unsubscribe does not look at the UNSUBACK (mqtt5_to_mqtt3_adapter.c:2558-2576): a server's refusal is reported as success.
* **C71** (`C71_violated_used`, `C71_violated_twice`). resubscribe_existing_topics() adds the subscriptions in effect to the set once more (mqtt5_to_mqtt3_adapter.c:2297-2316, 2353-2359); adding a filter that is there cleans up its user data first (mqtt_subscription_set.c:244-247) and then keeps the same user data. Handlers are later called with user data that was cleaned up, and it is cleaned up again.
* **C72** (`C72_violated`, `C72_violated_unsent`). A second CONNACK on an established connection invokes on_connection_complete again (client_channel_handler.c:238-257); a reconnect that cannot send CONNECT invokes on_connection_complete with an error although the connection was established and then interrupted (client.c:710-719).
* **C73** (`C73_violated_thread`). `connect` of the 3.1.1 client with clean_session completes the pending requests of an earlier session on the thread that calls it (client.c:1846-1866), outside of the event loop. The completion callbacks of the protocol adapter and of the request-response client then change `incomplete_operations` and the table of operations off the event loop; a subscription event trips the fatal assertion at request_response_client.c:982.
* **C74** (`C74_violated`). When two operations in flight have the same packet id (see C29), the timeout of the first removes the entry of the packet id; `s_check_timeouts` then finds the second in the heap but not in the table, has already taken it from the heap, and returns (mqtt5_client.c:223, 236-240). The second operation never times out, and other overdue operations wait for the next service task.
* **C78** (`C78_violated_stop`, `C78_violated_connack`). `aws_mqtt5_client_stop` with a DISCONNECT puts it in front of the CONNECT if the service task has not run since the channel was set up: the first and only packet on the connection is then DISCONNECT. A CONNACK received before CONNECT has been sent is taken for its answer: the client reports that it is connected, its CONNECT fails validation (its size cannot be computed, `aws_mqtt5_packet_view_get_encoded_size` knows no CONNECT), and it publishes to a server it never sent CONNECT.
* **C79** (`C79_violated_size`, `C79_violated_ignored`, `C79_violated_inbound`). `outbound_alias_cache_max_size` is stored, defaulted to 25 and logged, and never read: the LRU cache has the size of the server's topic_alias_maximum. The documentation says that without server support "any attempts to directly manipulate the topic alias id in outbound publishes will be ignored"; with manual aliases such a PUBLISH makes the encoder fail, which closes the connection, and as the operation is dropped (C27) its user is not told until the client is destroyed. Inbound aliases "disabled" do not override a topic_alias_maximum of the CONNECT options, so the server is allowed to use them.
* **C80** (`C80_violated_first`, `C80_violated_full`, `C80_violated_connack`). The first ping is sent a keep-alive interval after CONNACK, not after CONNECT; with a ping timeout close to the keep-alive time the server sees nothing for nearly twice that time, and MQTT-3.1.2-24 tells it to close the connection after 1.5 times. A ping needs a packet id although PINGREQ has none: with 65535 publishes waiting for acknowledgements none is sent, and a dead connection is not noticed. A second CONNACK with return code 0 in state CONNECTED is accepted and re-initializes `ping_task`, which is in the list of scheduled tasks (undefined behaviour the server can cause).
* **C82** (`C82_violated_tls`, `C82_violated_password`, `C82_violated_username`). `use_tls` is set by connect() with TLS options (client.c:1796) and never cleared. If the same connection object is later connected without TLS options, `s_mqtt_client_connect` passes TLS options that are all zero to the bootstrap instead of none. set_login() with an empty password sends no password, and with an empty user name sends neither, though it reports success and MQTT 3.1.1 allows both to be empty.
* **C83** (`C83_violated_shared`, `C83_violated_unsubscribe`, `C83_violated_freed`, `C83_violated_resend`). The table holds a shared subscription under the filter it shares (client.c:2105-2139), so resubscribe_existing_topics() subscribes the filter and not the shared subscription, and a subscription of the filter itself is replaced and later removed with the shared one. The request of resubscribe_existing_topics() keeps cursors into the strings of the table (client.c:2581-2596): if the filter is unsubscribed before SUBACK comes, on_suback gets a filter in freed memory, and a packet that is sent again is made from it. When that packet is sent again, the list of topics is made anew (client.c:2622) but the packet is not (2641): if a subscription was added in between, SUBACK has fewer codes than topics and the connection is closed as for a protocol error (client_channel_handler.c:416-420); the first list leaks.
* **C84** (`C84_violated`, `C84_violated_write`). `s_subscribe_send` acquires a reference of each topic that it puts into the table (client.c:2141). When it fails afterwards (a later filter is `$share/name` without a filter, no message, or a packet that does not fit), the table is rolled back, but the references are not released (client.c:2184-2194): the topics leak and their cleanup callback is never called, not even when the connection is destroyed.
* **C85** (`C85_violated_before`, `C85_violated_options`, `C85_violated_written`). A request copies `operation_timeout_ns` when it is submitted (client.c:2284, 2478, 2797, 3039, 3323), but the field is 0 in a new connection and set by connect() (client.c:1759-1767). An operation that was submitted before the first connect() therefore never times out, and one that was submitted before a connect() with another timeout keeps the old one. The header (client.h:243-248) counts the time from when the packet is written to the socket; the code counts it from when it is handed to the channel (client.c:2162-2167, with a TODO), so that an operation can time out before its packet is written.
* **C87** (`C87_violated_keepAlive`, `C87_violated_ping`, `C87_violated_operation`, `C87_violated_login`, `C87_violated_metrics`, `C87_violated_will`, `C87_violated_crash`). The adapter copies `keep_alive_time_secs` and `ping_timeout_ms` as they are (mqtt5_to_mqtt3_adapter.c:608-609). For 0, client.h:234-240 promises a ping every 20 minutes and 3 seconds to answer it; the MQTT 5 client sends no ping, and waits for half the keep alive. The operation timeout is rounded up with a 32-bit sum (612-616), so more than 4294966296 ms become 0, which is no timeout. `set_login` returns success before the user name is checked; its task drops a login that is not valid (1632-1638), and the old one is used. The task stores the user name with metrics already in it (1642), so metrics that are turned off later stay in the CONNECT, and a user name that gets too long with metrics crashes the task (as in C57). `set_will` does not check the size of the payload (1553-1565); with more than 65535 bytes no CONNECT can be made any more, and each later `set_login` is dropped. `connect()` reads `socket_options` without a check for NULL (246). Besides, `set_reconnect_timeout` takes milliseconds here (1117-1139) but seconds in a 3.1.1 connection.
* **C88** (`C88_violated`). `s_websocket_connect` gives the user no reference for the handshake transformation (mqtt5_client.c:1016-1020), but `s_websocket_handshake_transform_complete` acquires one (990). If the user has released the client in between, the count is 0 at that point: `aws_ref_count_acquire` asserts that it is not (a crash in debug builds), and in other builds `s_on_mqtt5_client_zero_ref_count` is called a second time when the task releases its reference (971). It schedules a second change to the terminated state; the client is still freed once, because that task is run before the service task that frees the client (`C88_once`, `C88_memory`).
* **C89** (`C89_kept`, `C89_violated`). `s_mqtt_client_connection_start_destroy` disconnects a connection that is not disconnected when its last reference is released (client.c:923-937). But `connect` takes a reference for the connection itself (1882), which is given back only after it is disconnected (467, 767). So this code is never reached: when the user of an established connection releases it without calling `disconnect`, it stays connected, reconnects when it is interrupted, and is never destroyed.
* **C90** (`C90_violated`, `C90_violated_clean`, `C90_violated_task`). client.h:565-566 says that `disconnect` cancels all uncompleted requests, regardless of clean_session. `s_mqtt_client_shutdown` cancels them only if clean_session is set (client.c:298-308) and otherwise keeps them for the next connection; and requests that were accepted while the connection was interrupted are kept in both cases, as neither `s_attempt_reconnect` (750-767) nor the end of `s_mqtt_client_shutdown` (431-467) cancels anything. So are those whose outgoing task is cancelled after the channel was shut down (`mqtt_create_request` schedules it after it has released the lock). They are completed only when the connection is destroyed, or connected again.
* **C91** (`C91_violated`). When disconnect() is called while the connection waits for its reconnect task, `s_attempt_reconnect` ends the connection (client.c:750-767): it invokes `on_disconnect` and `on_closed`, but does not call `aws_mqtt311_callback_set_manager_on_disconnect`, which the two places of `s_mqtt_client_shutdown` do (444, 453). Listeners are not told of such a disconnect. They have been told of the interruption before (`C91_online`).
* **C92** (`C92_failure_written`). A comment says that the result AWS_MQTT5_MPAR_CRT_FAILURE indicates "that the PUBACK was not sent" (mqtt5_options_storage.c:2314-2317). It is also reported when the connection is lost between handing the complete PUBACK to the channel and the completion of that write; the server may have it. The statement of C92 does not claim what the comment says.
* **C94** (`C94_memory_violated`, `C94_channel_violated`). disconnect() leaves its critical section (client.c:2010) before `mqtt_disconnect_impl` tests `connection->slot` and then reads it again for `connection->slot->channel` (client_channel_handler.c:1105-1110), without the lock. `s_mqtt_client_shutdown` removes the slot on the event loop under the lock (client.c:349-354). If the peer closes the connection in between, the slot is NULL or freed memory. If on_disconnect is invoked in between and the user connects again, the task is scheduled on the new channel and closes it; the user is told that the new connection was interrupted. To repair it, schedule the task before the lock is released.
* **C95** (`C95_violated`, `C95_violated_offline`). `mqtt_create_request` ends with `return next_request->packet_id` (client_channel_handler.c:1010), after the lock has been released (996) and the task scheduled (1005). By then the event loop may have sent, completed and freed the request (always possible with QoS 0), or another thread cancelled it by connect() with a clean session; the read is of freed memory, which the pool may have given to another request. To repair it, copy the identifier before the lock is released.
* **C96** (`C96_violated`). MQTT-3.14.4-2 forbids packets after DISCONNECT. `mqtt_create_request` tests the state under the lock but schedules its task after it has released it (client_channel_handler.c:996-1005), and `s_request_outgoing_task` does not test it again. A thread that is between the two while another calls disconnect() writes its packet after DISCONNECT, if the task runs after the handler and before the socket has been shut down. To repair it, schedule the task under the lock, or test the state in the task.
