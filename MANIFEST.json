{"claims": [
 {"property": "C01", "status": "proved", "theorems": ["Verif.Props.Window.window_refines_ideal", "Verif.Props.Window.accepted_at_most_once", "Verif.Props.App12.delivered_once_partial", "Verif.Props.Epoch13.delivered_once_partial"], "note": "window.rs against the ideal filter that remembers every accepted number; delivered_once_partial lifts it to whole DTLS 1.2 sessions; Epoch13.delivered_once_partial lifts it to whole DTLS 1.3 sessions: no two opened records share epoch and number"},
 {"property": "C02", "status": "proved", "theorems": ["Verif.Props.Window.window_refines_ideal", "Verif.Props.Window.fresh_accepted_iff"], "note": "exact acceptance condition after any history"},
 {"property": "C03", "status": "proved", "theorems": ["Verif.Props.Window.forged_is_noop", "Verif.Props.Recv12.forged_moves_nothing", "Verif.Props.Recv12.unopened_keeps_receive_state", "Verif.Props.Recv13.forged_moves_nothing", "Verif.Props.Recv13.unopened_keeps_receive_state"], "note": "Both versions: datagrams without an opening record leave the receive state (and, without unprotected handshake records, the session) as it is, in every reachable state with the peer's encryption on. 1.3 assumes that the configuration allows only suites of the provider."},
 {"property": "C04", "status": "proved", "theorems": ["Verif.Props.Seq13.reconstruct16", "Verif.Props.Seq13.reconstruct8", "Verif.Props.Seq13.reconstruct_general", "Verif.Props.Seq13.reconstruct_agrees"], "note": "whole 2^48 space, both header sizes; strict half-window bound"},
 {"property": "C05", "status": "partial", "theorems": ["Verif.Props.Epoch13.epochs_resolve_partial", "Verif.Props.Epoch13.key_update_adds"], "note": "DTLS 1.3, all call histories of a careful caller (one that stops after a fatal error until no keys are ahead of the state): the receive epochs are consecutive, at most four, and each is the one its two bits select; key_update_adds: each KeyUpdate adds the next epoch and drops the oldest of four. Missing: callers that go on after some fatal errors"},
 {"property": "C06", "status": "partial", "theorems": ["Verif.Props.Fresh13.nonces_differ_partial"], "note": "Whole 1.3 sessions, both roles, any interleaving of calls: all (epoch, number) pairs of the records in the datagrams handed out differ, one key set per epoch, and distinct nonces under one key if keys of different epochs differ (cryptographic) and IVs have 12 bytes. Missing: a caller that carries on after a call that failed leaving keys installed ahead of its state (Role.ahead)"},
 {"property": "C07", "status": "proved", "theorems": ["Verif.Props.Send13.numbers_bounded", "Verif.Props.Send13.exhausted_send"], "note": "every datagram any execution of a DTLS 1.3 client or server hands out is made of records numbered at most 2^48-2; an exhausted epoch makes send fail with an error (a panic only without a negotiated suite, which the state excludes) and queues nothing"},
 {"property": "C08", "status": "partial", "theorems": ["Verif.Props.Send12.nonces_differ_partial", "Verif.Props.Send12.nonce_repeats", "Verif.Props.Send12.nonce_wraps"], "note": "whole sessions, both roles. Holds under the hypotheses that fewer than 2^48 records are sealed and that random explicit nonces do not repeat; without them it fails: nonce_repeats (AES-GCM explicit nonce is random), nonce_wraps (no limit at 2^48)"},
 {"property": "C09", "status": "partial", "theorems": ["Verif.Props.Send12.datagrams_fit_partial", "Verif.Props.Send12.payload_exceeds_mtu", "Verif.Props.Send13.datagrams_fit_partial", "Verif.Props.Send13.payload_exceeds_mtu", "Verif.Props.Send13.ack_exceeds_mtu", "Verif.Props.Hybrid.hybrid_fits_partial", "Verif.Props.Hybrid.pending_packets", "Verif.Props.Hybrid.hybrid_exceeds_mtu"], "note": "Both versions: every datagram fits unless it holds application data larger than the MTU allows, for DTLS 1.3 with MTU at least 527 and 520 plus the tag (ACK and saved flights). False without these: payload_exceeds_mtu, and in DTLS 1.3 ack_exceeds_mtu for small MTUs. The hybrid ClientHello of an auto-sensing client fits exactly when its unpadded form does (hybrid_fits_partial); false otherwise (hybrid_exceeds_mtu)."},
 {"property": "C10", "status": "partial", "theorems": ["Verif.Props.Frag12.sender_fragments", "Verif.Props.Frag12.receiver_reassembles", "Verif.Props.Frag12.reassembled_exactly_partial", "Verif.Props.Frag12.too_many_fragments", "Verif.Props.Frag13.sender_fragments", "Verif.Props.Frag13.receiver_reassembles", "Verif.Props.Frag13.reassembled_exactly_partial", "Verif.Props.Frag13.big_message_panics"], "note": "Both versions: fragments of any message at any MTU >= 64 and fill level parse back, cut the message exactly, and a receiver holding them in at most 50 records consumes exactly the message, with equal transcript contributions. Refuted in DTLS 1.2 beyond 50 fragments (too_many_fragments), in DTLS 1.3 beyond 12 (big_message_panics)."},
 {"property": "C11", "status": "partial", "theorems": ["Verif.Props.Frag13.only_the_message", "Verif.Props.Frag13.receiver_reassembles", "Verif.Props.Frag13.flight_consumed_partial", "Verif.Props.Frag13.refragmented_stalls", "Verif.Props.Frag13.too_many_fragments"], "note": "Never anything else: proved without restriction (only_the_message). Reassembly: proved for up to 50 pieces in the queue in order of offset, overlapping arbitrarily (receiver_reassembles), and for arrival in any order and multiplicity, one piece per datagram, if pieces with the same offset are equal or one is the whole message (flight_consumed_partial). Refuted beyond: refragmented_stalls, too_many_fragments."},
 {"property": "C12", "status": "partial", "theorems": ["Verif.Props.Frag12.flight_consumed_partial", "Verif.Props.Frag12.refragmented_stalls"], "note": "Refuted: refragmented_stalls. Proved for fragments arriving in any order and multiplicity as long as every message is always cut the same way and each fragment has its own datagram."},
 {"property": "C13", "status": "partial", "theorems": ["Verif.Props.Recv12.consumed_in_order", "Verif.Props.Recv13.consumed_in_order_partial", "Verif.Props.Recv13.taken_twice"], "note": "DTLS 1.2 proved for every execution. DTLS 1.3: the messages gone past are 0, 1, 2, ... and each message handed out has the next number; the claim is false in that one number can be handed out twice (taken_twice)."},
 {"property": "C14", "status": "partial", "theorems": ["Verif.Props.Frag12.flight_consumed_partial", "Verif.Props.Frag12.packing_stalls", "Verif.Props.Frag13.flight_consumed_partial", "Verif.Props.Frag13.packing_stalls"], "note": "Refuted in general in both versions: packing_stalls. Proved for one fragment per datagram, any order, any duplication; in DTLS 1.2 the same cut, in DTLS 1.3 overlapping pieces."},
 {"property": "C15", "status": "partial", "theorems": ["Verif.Props.App13.delivers_authentic_partial", "Verif.Props.App13.delivers_forged"], "note": "DTLS 1.3, all call histories: what is delivered was opened with a key of the session and deprotects to exactly the delivered bytes, or was an undeciphered record held from before the keys existed. The second case is real: delivers_forged shows a 9-byte unauthenticated datagram delivered as application data, so the full statement is false for this code"},
 {"property": "C16", "status": "partial", "theorems": ["Verif.Props.App12.delivers_authentic_partial", "Verif.Props.App12.delivers_forged"], "note": "the claim is false: delivers_forged is an attack from a fresh connection. Proved: everything delivered either was opened with the receive key or was received before keys existed with epoch >= 2"},
 {"property": "C17", "status": "proved", "theorems": ["Verif.Props.App12.no_data_before_connected", "Verif.Props.Shake13.client_no_early_data", "Verif.Props.Shake13.server_no_early_data"], "note": "Both versions, both roles, all call histories."},
 {"property": "C18", "status": "partial", "theorems": ["Verif.Props.App12.delivered_once_partial", "Verif.Props.Epoch13.delivered_once_partial", "Verif.Props.App12.delivers_replayed", "Verif.Props.App13.delivers_replayed"], "note": "Authenticated records: proved for DTLS 1.2 and for DTLS 1.3 with a careful caller. Unauthenticated early records (C15, C16) refute the claim: one that arrives in two datagrams is delivered twice (delivers_replayed, both versions)"},
 {"property": "C19", "status": "proved", "theorems": ["Verif.Props.Recv12.rx_bounded", "Verif.Props.Recv12.rx_full", "Verif.Props.Recv13.rx_bounded", "Verif.Props.Recv13.rx_full"], "note": "Both versions, every execution: the queue never exceeds its bound, and a datagram arriving at a full queue is refused with ReceiveQueueFull and not stored."},
 {"property": "C20", "status": "proved", "theorems": ["Verif.Props.Send12.tx_bounded", "Verif.Props.Send12.send_all_or_nothing", "Verif.Props.Send12.send_full", "Verif.Props.Send13.tx_bounded", "Verif.Props.Send13.send_all_or_nothing", "Verif.Props.Send13.send_full"], "note": "both versions, client and server, all executions"},
 {"property": "C21", "status": "partial", "theorems": ["Verif.Props.Recv12.too_small_loses_nothing", "Verif.Props.Recv12.short_certificate_panics", "Verif.Props.Recv13.too_small_loses_nothing", "Verif.Props.Recv13.short_certificate_panics"], "note": "Proved for datagrams and application data in both versions; the claim is false for the peer certificate, whose output asserts the buffer length (short_certificate_panics)."},
 {"property": "C22", "status": "partial", "theorems": ["Verif.Props.Auto.server_hello_peek_can_panic", "Verif.Props.Recv12.no_panic_when_connected_partial", "Verif.Props.Recv12.duplicate_panics", "Verif.Props.Recv13.hello_before_timeout_panics", "Verif.Props.Frag13.big_message_panics", "Verif.Props.Sense.zero_timeout_panics", "Verif.Props.Sense.never_empty", "Verif.Props.Safe13.no_panic_when_connected_partial", "Verif.Props.Safe13.released_fine", "Verif.Props.NoPanic13.no_panic_partial", "Verif.Props.NoPanic12.no_panic_partial", "Verif.Props.NoPanic12.no_panic_encrypted_partial", "Verif.Props.NoPanic12.no_panic_own_partial", "Verif.Props.Full.V13.retry_panics"], "note": "The claim is false: server_hello_peek_can_panic, duplicate_panics, hello_before_timeout_panics, big_message_panics, zero_timeout_panics, and after a refused call retry_panics. Behind the dispatcher the inner value is never lost for a positive handshake timeout (never_empty). DTLS 1.3: proved for every call of every session, from the first handle_timeout on, as long as no call was answered with an error; left out are the twelve saved fragments of a flight (the panic of big_message_panics) and, once connected, counters at their end (NoPanic13.no_panic_partial). DTLS 1.2: proved for every call of every session, from the first handle_timeout on, as long as no call was answered with an error; left out are the repeated early record (the panic of duplicate_panics), sixteen bit message counters at their end, and records of an epoch past 1 that open (NoPanic12.no_panic_partial). Missing: calls after an error was reported. The masks of DTLS 1.3 record numbers are taken to be total; see C82 (Mask.chacha_refuses) for one that may panic."},
 {"property": "C23", "status": "partial", "theorems": ["Verif.Props.Recv12.truncated_is_silent", "Verif.Props.Recv12.garbage_is_silent", "Verif.Props.Recv12.junk_kills_handshake", "Verif.Props.Recv13.truncated_is_silent", "Verif.Props.Recv13.garbage_is_silent", "Verif.Props.Recv13.forged_moves_nothing", "Verif.Props.Sense.stray_datagram"], "note": "Proved in both versions for datagrams that do not frame as records and for those whose records have bad headers; false in DTLS 1.2 for undecryptable records during the handshake (junk_kills_handshake). In DTLS 1.3 undecryptable records are dropped (Recv13.forged_moves_nothing). False for the pending client of version auto-sensing (stray_datagram)."},
 {"property": "C24", "status": "partial", "theorems": ["Verif.Props.Recv12.unauthenticated_ignored_partial", "Verif.Props.Recv12.flood_ignored_partial", "Verif.Props.Recv12.full_queue_error", "Verif.Props.Recv12.unconfirmed_resends", "Verif.Props.Recv13.unauthenticated_ignored_partial", "Verif.Props.Recv13.flood_ignored_partial", "Verif.Props.Recv13.forged_key_update", "Verif.Props.Recv13.forged_renegotiation", "Verif.Props.Recv13.forged_stub_blocks"], "note": "DTLS 1.2: proved for a confirmed session whose receive queue is not full; false otherwise (full_queue_error). DTLS 1.3: proved for datagrams without unprotected handshake records; false for those (forged_key_update, forged_renegotiation, forged_stub_blocks)."},
 {"property": "C25", "status": "proved", "theorems": ["Verif.Props.Wire.record12_roundtrip", "Verif.Props.Wire.record12_exact", "Verif.Props.Wire.plain13_roundtrip", "Verif.Props.Wire.cipher13_roundtrip", "Verif.Props.Wire.first_byte_decides", "Verif.Props.Wire.parse13_exact"], "note": "1.2 records, 1.3 plaintext and unified headers, both directions"},
 {"property": "C26", "status": "proved", "theorems": ["Verif.Props.Wire.split12_concat", "Verif.Props.Wire.split12_partition", "Verif.Props.Wire.split13_concat", "Verif.Props.Wire.split13_partition"], "note": "both versions: splitting a concatenation, and any successful split partitions the input"},
 {"property": "C27", "status": "proved", "theorems": ["Verif.Props.Wire.handshake_roundtrip", "Verif.Props.Wire.handshake_exact", "Verif.Props.Wire.handshakes_roundtrip"], "note": ""},
 {"property": "C28", "status": "proved", "theorems": ["Verif.Props.Wire.inner_roundtrip", "Verif.Props.Wire.inner_exact", "Verif.Props.Wire.inner_none_iff"], "note": ""},
 {"property": "C29", "status": "proved", "theorems": ["Verif.Props.Pair13.protected_roundtrip", "Verif.Props.Pair13.stream_delivered"], "note": "For every content type but 0 and every content that fits a record (longer ones: C50, payload_truncated). stream_delivered: end to end between two connected sessions, with losses."},
 {"property": "C30", "status": "proved", "theorems": ["Verif.Props.Timer.schedule_refines_ideal", "Verif.Props.Timer.resends_bounded", "Verif.Props.Timer.resend_only_after_expiry"], "note": "timer level; the engines call flight_resend exactly on Fired.resend"},
 {"property": "C31", "status": "partial", "theorems": ["Verif.Props.Timer.deadline_enforced", "Verif.Props.Timer13.client_deadline", "Verif.Props.Timer13.server_deadline_partial", "Verif.Props.Timer13.server_waits_forever", "Verif.Props.Timer12.deadline"], "note": "Timers (both versions) and, over whole executions, DTLS 1.2 sessions of both roles (Timer12.deadline, no restriction), DTLS 1.3 clients that are not closed, DTLS 1.3 servers that do not ask for client certificates, and servers that do until the client's Certificate has been accepted. server_waits_forever refutes the rest: accepting the Certificate stops all timers."},
 {"property": "C32", "status": "partial", "theorems": ["Verif.Props.Timer.poll_after_handle_future", "Verif.Props.Timer.poll_is_earliest", "Verif.Props.Timer13.ack_storm", "Verif.Props.Timer13.closed_spins", "Verif.Props.Timer12.timeout_future"], "note": "Proved over whole executions for DTLS 1.2 (Timer12.timeout_future) and at timer level; in DTLS 1.3 the claim fails: ack_storm (a gap in the peer's flight) and closed_spins (closing then) are executions whose reported timeout is never in the future."},
 {"property": "C33", "status": "partial", "theorems": ["Verif.Props.Send12.resend_same_content", "Verif.Props.Send12.timeout_resends", "Verif.Props.Send12.nonces_differ_partial", "Verif.Props.Send13.resend_same_content", "Verif.Props.Send13.timeout_resends", "Verif.Props.Fresh13.nonces_differ_partial"], "note": "Both versions: same content, type and epoch, in order, unacknowledged entries only. Fresh numbers: nonces_differ_partial of each version, under the hypotheses given there"},
 {"property": "C34", "status": "proved", "theorems": ["Verif.Props.Ack13.ack_read_exactly", "Verif.Props.Ack13.ack_round_trip", "Verif.Props.Ack13.ack_marks_exactly", "Verif.Props.Ack13.ack_lists_opened"], "note": "parseAck reads l exactly from the wire form of l (ack_read_exactly, ack_round_trip); processAck marks exactly the listed records, a malformed ACK changes nothing (ack_marks_exactly); in every execution of a session every ACK sent lists 1..32 numbers of handshake records opened before (ack_lists_opened)."},
 {"property": "C35", "status": "partial", "theorems": ["Verif.Props.Ack13.epochs_in_step_partial", "Verif.Props.Ack13.rotation_confirmed_partial", "Verif.Props.Ack13.epochs_drift", "Verif.Props.Epoch13.key_update_adds"], "note": "Proved for DTLS 1.3 sessions: application data and KeyUpdates are sent in epoch 3 + number of rotations, each rotation advances by one and needs an outstanding KeyUpdate, exact account of KeyUpdates against rotations (epochs_in_step_partial); if no handle_packet/handle_timeout failed, each rotation follows an authenticated ACK of a KeyUpdate of that epoch (rotation_confirmed_partial); receiver side: Epoch13.key_update_adds. The drift bound fails in the code: epochs_drift."},
 {"property": "C36", "status": "partial", "theorems": ["Verif.Props.Seq13.threshold_range", "Verif.Props.Limit13.key_update_late_enough", "Verif.Props.Limit13.key_update_not_forgotten_partial", "Verif.Props.Limit13.limit_exceeded"], "note": "Not too early: every automatic KeyUpdate of every session is preceded by at least 3/4 of the limit of records under the same key (key_update_late_enough). Not forgotten: once the limit is reached by sending, the next handle_timeout or handle_packet that succeeds sends it (key_update_not_forgotten_partial). Not exactly at the limit: sending alone exceeds it (limit_exceeded)."},
 {"property": "C37", "status": "proved", "theorems": ["Verif.Props.Close12.after_close", "Verif.Props.Close12.close_ok", "Verif.Props.Close12.at_most_one_close_notify", "Verif.Props.Close13.after_close", "Verif.Props.Close13.close_ok", "Verif.Props.Close13.at_most_one_close_notify"], "note": "Both versions, client and server, all executions: a successful close closes; afterwards send fails with ConnectionClosed and close is a no-op. DTLS 1.2: no application data or alert is queued any more. DTLS 1.3: nothing at all is queued any more, and what is handed out later is exactly what was on the transmit queue when close returned. Closing a connected session queues exactly one close_notify, and an execution queues at most one alert."},
 {"property": "C38", "status": "proved", "theorems": ["Verif.Props.Close12.close_silent", "Verif.Props.Close13.close_silent", "Verif.Props.Timer13.close_distant", "Verif.Props.Timer13.closed_spins"], "note": "Both versions, all executions: after close during the handshake no output of any later execution is a datagram and no timer fires, handle_timeout returns Ok. DTLS 1.2 also reports only timeouts in the distant future; DTLS 1.3 directly after close if nothing waits that an ACK could help with (close_distant), not otherwise (Timer13.closed_spins: a stale ACK deadline in the past is reported, though nothing fires)."},
 {"property": "C39", "status": "partial", "theorems": ["Verif.Props.App12.close_notify_once", "Verif.Props.App12.close_notify_authentic", "Verif.Props.App12.nothing_new_after_close", "Verif.Props.App12.waiting_is_delivered", "Verif.Props.App12.no_data_after_close_notify", "Verif.Props.App13.close_notify_once", "Verif.Props.App13.close_notify_authentic_partial", "Verif.Props.App13.close_notify_forged", "Verif.Props.App13.nothing_new_after_close", "Verif.Props.App13.waiting_is_delivered"], "note": "DTLS 1.2 in full; DTLS 1.3: once, nothing new after the close, waiting data is delivered. Authenticity in 1.3 is partial because the code acts on an unprotected close_notify before encryption (close_notify_forged)"},
 {"property": "C40", "status": "proved", "theorems": ["Verif.Props.Shake12.client_connected", "Verif.Props.Shake12.server_connected"], "note": "For the models of the 1.2 client (plain and hybrid start) and server, every sequence of API calls and every outcome of the abstract cryptography. The Finished check, the key exchange signature and the CertificateVerify are stated over the transcript and the consumed messages."},
 {"property": "C41", "status": "proved", "theorems": ["Verif.Props.Shake13.client_connected", "Verif.Props.Shake13.server_connected"], "note": "All call histories, configurations and peers; client (plain or after a hybrid ClientHello) and server. Connected counts both output and still queued."},
 {"property": "C42", "status": "partial", "theorems": ["Verif.Props.Shake12.no_certificate_connects", "Verif.Props.Shake12.client_certificate_partial", "Verif.Props.Shake13.no_certificate_connects", "Verif.Props.Shake13.client_certificate_partial"], "note": "False as stated for both versions: no_certificate_connects is a server with require_client_certificate that reports Connected to a client with an empty certificate list. Proved: a Certificate message was received and, if not empty, CertificateVerify was verified."},
 {"property": "C43", "status": "partial", "theorems": ["Verif.Props.Shake12.cookie_first_partial", "Verif.Props.Shake12.hello_verify_resent", "Verif.Props.Shake13.cookie_first_partial", "Verif.Props.Shake13.hello_retry_resent"], "note": "DTLS 1.2 and 1.3: before a ClientHello with the right cookie, everything sent is HelloVerifyRequest (1.2) or HelloRetryRequest (1.3) pieces, and the server is still waiting for a ClientHello or closed. False part: the reply is not stateless, hello_verify_resent and hello_retry_resent show it retransmitted on a timer."},
 {"property": "C44", "status": "proved", "theorems": ["Verif.Props.Shake12.server_negotiated", "Verif.Props.Shake12.client_negotiated", "Verif.Props.Shake13.server_negotiated", "Verif.Props.Shake13.client_negotiated"], "note": "Both versions and roles, every offer and configuration. DTLS 1.3: for runs without a panic. The 1.3 ServerHello's share is the server's own key exchange's."},
 {"property": "C45", "status": "partial", "theorems": ["Verif.Props.Auto.server_hello_decides", "Verif.Props.Auto.hello_verify_decides", "Verif.Props.Auto.others_decide_nothing", "Verif.Props.Auto.server_hello_peek_can_panic", "Verif.Props.Sense.stray_datagram", "Verif.Props.Sense.answer_12", "Verif.Props.Sense.answer_13", "Verif.Props.Sense.server_decides", "Verif.Props.Sense.fallback_loses_nothing", "Verif.Props.Sense.version_final", "Verif.Props.Hybrid.hybrid_layout", "Verif.Props.Hybrid.hybrid_header"], "note": "Client: well-formed answers decide exactly and the session goes on with the answer (answer_12, answer_13); other datagrams decide nothing (stray_datagram); a truncated supported_versions extension panics (server_hello_peek_can_panic), so the claim is partial. Server: falls back exactly for a first ClientHello that offers no DTLS 1.3 (server_decides), replaying all retained datagrams (fallback_loses_nothing); the version never changes afterwards (version_final)."},
 {"property": "C46", "status": "proved", "theorems": ["Verif.Props.Auto.hybrid_schedule", "Verif.Props.Auto.hybrid_small_buffer", "Verif.Props.Auto.hybrid_timeout_future"], "note": ""},
 {"property": "C47", "status": "proved", "theorems": ["Verif.Props.Auto.psk_peek_exact", "Verif.Props.Auto.psk_peek_total", "Verif.Props.Auto.psk_peek_yes"], "note": ""},
 {"property": "C48", "status": "partial", "theorems": ["Verif.Props.Close12.sent_once_in_order", "Verif.Props.Close12.sent_exactly_once_partial", "Verif.Props.Close12.queued_data_lost", "Verif.Props.Close13.never_twice", "Verif.Props.Close13.sent_exactly_once_partial", "Verif.Props.Close13.queued_data_lost", "Verif.Props.Close13.queued_data_overtaken"], "note": "DTLS 1.2: transmitted application data is always a subsequence of the accepted data (no duplicates, in order). DTLS 1.3: always at most as often as accepted. Both: exactly the accepted data, in order, if no datagram or timeout call failed. The code loses queued data when flushing fails (queued_data_lost), and in DTLS 1.3 later data can overtake queued data after a failed automatic KeyUpdate (queued_data_overtaken)."},
 {"property": "C49", "status": "proved", "theorems": ["Verif.Props.Config.build_iff_usable", "Verif.Props.Frag13.built_makes_progress"], "note": "Progress: fragmentation of any message in any state ends in both versions, for suites whose record protection adds at most 24 (1.2) or a tag of at most 16 bytes (1.3), which is a property of the suites of the provider."},
 {"property": "C50", "status": "partial", "theorems": ["Verif.Props.Send12.length_preserved_partial", "Verif.Props.Send12.payload_truncated", "Verif.Props.Send13.length_preserved_partial", "Verif.Props.Send13.payload_truncated"], "note": "both versions; false above 65535 bytes: payload_truncated"},
 {"property": "C51", "status": "proved", "theorems": ["Verif.Props.Kdf.prf_eq_rfc5246", "Verif.Props.Kdf.prf_length", "Verif.Props.Kdf.prf_prefix", "Verif.Props.Kdf.hkdf_eq_rfc5869", "Verif.Props.Kdf.hkdf_length", "Verif.Props.Kdf.hkdf_label_injective", "Verif.Props.Kdf.hkdf_extract_eq_rfc5869", "Verif.Props.Kdf.hkdf_label_eq_rfc8446"], "note": "HMAC abstract"},
 {"property": "C52", "status": "proved", "theorems": ["Verif.Props.Kdf.nonce_xor_injective", "Verif.Props.Kdf.seq64_injective", "Verif.Props.Kdf.nonce_new_injective", "Verif.Props.Kdf.nonce_new_total", "Verif.Props.Kdf.aad12_injective"], "note": ""},
 {"property": "C53", "status": "partial", "theorems": ["Verif.Props.Timer13.server_connected_stays_partial", "Verif.Props.Timer13.connected_client_times_out", "Verif.Props.Timer13.client_deadline", "Verif.Props.Ack13.packed_key_update_unacked", "Verif.Props.Ack13.lost_ack_is_fatal", "Verif.Props.Timer12.connected_stays"], "note": "Proved for DTLS 1.2 sessions of both roles (Timer12.connected_stays; the only assumption on cryptography is that opening a ciphertext does not lengthen it). DTLS 1.3 servers never report Timeout(Connect) after Connected, but can report Timeout(Handshake) when a KeyUpdate goes unacknowledged (packed_key_update_unacked, lost_ack_is_fatal). Clients report Timeout(Connect): connected_client_times_out, and by client_deadline every client that is not closed."},
 {"property": "C54", "status": "partial", "theorems": ["Verif.Props.Dtls.switched_like_constructed_12", "Verif.Props.Dtls.switched_like_constructed_13_partial", "Verif.Props.Dtls.switched_back_keeps_client", "Verif.Props.Dtls.switched_back_fails", "Verif.Props.Dtls.pending_switch_panics", "Verif.Props.Dtls.auto_client_pending", "Verif.Props.Dtls.switch_drops_data", "Verif.Props.Dtls.role_fits", "Verif.Props.Dtls.new_fits"], "note": "False for a DTLS 1.3 value switched to client and back to server (switched_back_fails, switched_back_keeps_client) and for an auto-sensing value switched twice (pending_switch_panics). Proved: DTLS 1.2 values switched any number of times and DTLS 1.3 values not switched back have exactly the lives of values made in that role; role_fits: the key direction follows the role in every reachable state otherwise."},
 {"property": "C55", "status": "partial", "theorems": ["Verif.Props.Timer.poll_is_earliest", "Verif.Props.Timer13.unarmed_not_counted", "Verif.Props.Timer13.never_resends", "Verif.Props.Timer13.first_timeout_far"], "note": "The claim fails in both versions: a new flight leaves its timer unarmed, the reported timeout does not count it (unarmed_not_counted), and a client driven by the reported instants gives up without resending (never_resends). poll_is_earliest proves what holds for armed timers."},
 {"property": "C56", "status": "partial", "theorems": ["Verif.Props.Ack13.new_records_noted_partial", "Verif.Props.Ack13.ack_lists_noted", "Verif.Props.Ack13.packed_key_update_unacked", "Verif.Props.Ack13.lost_ack_is_fatal"], "note": "Fails in the code: packed_key_update_unacked, lost_ack_is_fatal. Proved: numbers of new messages in datagrams that begin with a handshake record are noted, and an ACK lists exactly the noted numbers."},
 {"property": "C57", "status": "partial", "theorems": ["Verif.Props.Msg12.client_hello_sent", "Verif.Props.Msg12.server_hello_sent", "Verif.Props.Msg12.hello_verify_sent", "Verif.Props.Msg12.certificate_sent", "Verif.Props.Msg12.cert_request_sent", "Verif.Props.Msg12.server_kx_sent", "Verif.Props.Msg12.psk_hint_sent", "Verif.Props.Msg12.client_kx_sent", "Verif.Props.Msg12.psk_identity_read", "Verif.Props.Msg12.psk_identity_sent_partial", "Verif.Props.Msg12.psk_identity_cut", "Verif.Props.Msg12.certificate_verify_sent", "Verif.Props.Msg12.finished_sent", "Verif.Props.Msg13.client_hello_sent_partial", "Verif.Props.Msg13.client_hello_wraps", "Verif.Props.Msg13.server_hello_sent", "Verif.Props.Msg13.hello_retry_sent", "Verif.Props.Msg13.enc_exts_sent", "Verif.Props.Msg13.certificate_sent", "Verif.Props.Msg13.certificate_verify_sent", "Verif.Props.Msg13.finished_sent", "Verif.Props.Msg13.cert_request_layout", "Verif.Props.MsgHybrid.hybrid_read_partial", "Verif.Props.MsgDemo.cert12_completes", "Verif.Props.MsgDemo.psk12_completes", "Verif.Props.MsgDemo.full13_completes"], "note": "Every message of both versions, at the level of Body::parse with the modelled codecs (Model/Msg, Msg12, Msg13), against layouts written in the presentation language of TLS (Props/Msg); whole handshakes with these codecs complete (MsgDemo). Refuted where a length is written `as u16`: a PSK identity or hint of 65536 bytes or more is cut (psk_identity_cut), and with an MTU above 65602 + 2 per suite no server reads the padded DTLS 1.3 ClientHello (client_hello_wraps). CertificateRequest of DTLS 1.3 is kept unparsed by the code; its layout is proved."},
 {"property": "C58", "status": "proved", "theorems": ["Verif.Props.Msg12.client_hello_read", "Verif.Props.Msg12.unknown_ignored", "Verif.Props.Msg12.groups_read", "Verif.Props.Msg12.sigs_read", "Verif.Props.Msg12.srtp_read", "Verif.Props.Msg12.server_hello_read", "Verif.Props.Msg12.certificates_read", "Verif.Props.Msg12.repeats_refused", "Verif.Props.Msg13.client_hello_read", "Verif.Props.Msg13.unknown_ignored", "Verif.Props.Msg13.versions_read", "Verif.Props.Msg13.sigs_read", "Verif.Props.Msg13.shares_read", "Verif.Props.Msg13.cookie_read", "Verif.Props.Msg13.server_hello_read", "Verif.Props.Msg13.enc_exts_read", "Verif.Props.Msg13.certificates_read", "Verif.Props.Msg13.repeats_refused"], "note": "The parsers of ClientHello, ServerHello, EncryptedExtensions and the list extensions of both versions, as functions of the entries: what is seen and exactly when the message is refused. Repeating a known entry beyond the capacity of its vector is refused (repeats_refused), as is a ServerHello of DTLS 1.3 with all six known extensions."},
 {"property": "C59", "status": "partial", "theorems": ["Verif.Props.MsgOnly12.parsed_only", "Verif.Props.MsgOnly12.taken_only", "Verif.Props.MsgOnly13.parsed_only", "Verif.Props.MsgOnly13.taken_only_partial", "Verif.Props.MsgOnly13.request_junk", "Verif.Props.MsgOnly13.request_unchecked", "Verif.Props.MsgOnlyExt.groups_only", "Verif.Props.MsgOnlyExt.sigs12_only", "Verif.Props.MsgOnlyExt.sigs13_only", "Verif.Props.MsgOnlyExt.versions_only", "Verif.Props.MsgOnlyExt.srtp_only", "Verif.Props.MsgOnlyExt.shares_only", "Verif.Props.MsgOnlyExt.server_share_only", "Verif.Props.MsgOnlyExt.number_only", "Verif.Props.MsgOnlyExt.cookie_only", "Verif.Props.MsgOnlyExt.formats_only"], "note": "Proved for DTLS 1.2 (every message) and all extension parsers; for DTLS 1.3 every message except CertificateRequest, whose body is not checked: request_junk and request_unchecked show malformed ones accepted and the handshake completing."},
 {"property": "C60", "status": "proved", "theorems": ["Verif.Props.Agree12.agreement", "Verif.Props.Agree12.connected_agree", "Verif.Props.Agree12.client_finished", "Verif.Props.Agree12.server_finished", "Verif.Props.Agree12.codec_clientWrites", "Verif.Props.Agree12.codec_serverWrites", "Verif.Props.Agree12.hybrid_begins", "Verif.Props.Agree12.srtp_case"], "note": "For all executions of both sides. Assumptions: the two sides read and derive alike (Same); hellos say what they were written with, shown for the modelled codec (codec_clientWrites, codec_serverWrites) and the hybrid hello (hybrid_begins); the verify_data in question does not clash between prefixes of the two transcripts (NoClash); transcript below 2^24 bytes. That Done holds for connected sessions is client_finished and server_finished."},
 {"property": "C61", "status": "proved", "theorems": ["Verif.Props.Keying12.client_keying", "Verif.Props.Keying12.server_keying"], "note": "Both roles, every execution. srtp_case in Agree12 shows a handshake with SRTP."},
 {"property": "C62", "status": "proved", "theorems": ["Verif.Props.Dupe12.repeats_answered", "Verif.Props.Dupe12.repeats_queue", "Verif.Props.Dupe12.repeats_case", "Verif.Props.Dupe13.repeats_answered", "Verif.Props.Dupe13.repeats_queue", "Verif.Props.Dupe13.repeat_protected_answered", "Verif.Props.Dupe13.plain_case"], "note": "DTLS 1.2: unprotected records (no message that asks is sent protected by a conforming peer; protected ones are not covered). DTLS 1.3: unprotected records, and one protected record with one message. repeats_queue says which contents are queued."},
 {"property": "C63", "status": "proved", "theorems": ["Verif.Props.Agree13.agreement_client", "Verif.Props.Agree13.agreement_server", "Verif.Props.Agree13.connected_agree", "Verif.Props.Agree13.connected_agree_server", "Verif.Props.Agree13.client_finished", "Verif.Props.Agree13.server_finished", "Verif.Props.Agree13.codec_serverWrites", "Verif.Props.Agree13.codec_finishedWhole", "Verif.Props.Agree13.hybrid_begins", "Verif.Props.Agree13.srtp_case"], "note": "For all executions of both sides. Assumptions: the two sides read and derive alike (Same); ServerHello and EncryptedExtensions say what they were written with and a Finished is its verify_data, shown for the modelled codec (codec_serverWrites, codec_finishedWhole); hybrid_begins covers the auto-sensed client; no clash of the verify_data and secrets in question between the two sessions (NoClash); transcript below 2^24 bytes. client_finished and server_finished: who reported Connected has sent a Finished and accepted one."},
 {"property": "C64", "status": "proved", "theorems": ["Verif.Props.Agree13.client_keying", "Verif.Props.Agree13.server_keying"], "note": "Both roles, every execution. srtp_case shows a handshake with SRTP."},
 {"property": "C65", "status": "proved", "theorems": ["Verif.Props.Returns.every_call_returns", "Verif.Props.Returns.run_returns", "Verif.Props.Returns.new_holds", "Verif.Props.Returns.never_hangs", "Verif.Props.Returns.rounds_do_not_matter", "Verif.Props.Returns.demo_sane"], "note": "Loops that could run for ever in the code (make_progress, fragmentation) have a number of rounds in the model, and running out is the result diverge; it never occurs. rounds_do_not_matter: any number of rounds from 40 gives the same result, so the bound is no part of the statement. Other loops of the code iterate over a finite list and are structural recursion in the model. demo_sane and the case beside it meet the hypotheses."},
 {"property": "C66", "status": "proved", "theorems": ["Verif.Props.Drain.V12.drains", "Verif.Props.Drain.V12.poll_hands_out", "Verif.Props.Drain.V12.timeout_stays", "Verif.Props.Drain.V13.drains", "Verif.Props.Drain.V13.poll_hands_out", "Verif.Props.Drain.V13.timeout_stays", "Verif.Props.Drain.case12_waits", "Verif.Props.Drain.case12_sizes", "Verif.Props.Drain.case12_small", "Verif.Props.Drain.case12_drains", "Verif.Props.Drain.case13_waits", "Verif.Props.Drain.case13_drains", "Verif.Props.Drain.unpolled_waits", "Verif.Props.Drain.unpolled_panics"], "note": "DTLS 1.2 assumes that opening a record does not lengthen it (DecShort). The certificate that does not fit is the documented requirement on the buffer; that there is a certificate where one is to be reported is proved. case12_*, case13_*, unpolled_*: cases that meet the hypotheses."},
 {"property": "C67", "status": "proved", "theorems": ["Verif.Props.Pair12.stream_delivered", "Verif.Props.Pair12.lossy_delivered", "Verif.Props.Pair12.open_wire", "Verif.Props.Pair12.refuse_wire", "Verif.Props.Pair12.sender_step", "Verif.Props.Pair12.receiver_step", "Verif.Props.Pair12.receiver_stale", "Verif.Props.Pair12.demo_client", "Verif.Props.Pair12.demo_server", "Verif.Props.Pair12.demo_case"], "note": "Assumes of the cryptography that what one side seals the other opens (Matched), that sealing adds a fixed number of bytes and does not fail. Both sides hold the same key for the direction; the receiver polls after each datagram. demo_case: a client and its server after a handshake, with loss, repetition and reordering."},
 {"property": "C68", "status": "partial", "theorems": ["Verif.Props.Full.V12.refused_unchanged", "Verif.Props.Full.V12.stuffed_refused", "Verif.Props.Full.V12.retry_skips_number", "Verif.Props.Full.V12.roomy_goes_on", "Verif.Props.Full.V13.refused_unchanged", "Verif.Props.Full.V13.stuffed_refused", "Verif.Props.Full.V13.flight_forgotten", "Verif.Props.Full.V13.polled_resends", "Verif.Props.Full.V13.retry_panics"], "note": "send_application_data and close: proved in both versions, in every state (refused_unchanged). False for handle_packet and handle_timeout: a DTLS 1.2 server that retries skips a message number and the client waits forever (retry_skips_number), a DTLS 1.3 endpoint forgets the flight it could not resend (flight_forgotten, with the default queue), and a DTLS 1.3 server that retries its ServerHello panics (retry_panics). roomy_goes_on, polled_resends: the same executions with room."},
 {"property": "C69", "status": "proved", "theorems": ["Verif.Props.Net13.stream_delivered", "Verif.Props.Net13.near_of_few", "Verif.Props.Net13.lost_for_good", "Verif.Props.Net13.demo_case", "Verif.Props.Net13.strict_case"], "note": "stream_delivered for any arrivals near the newest (near_of_few: fewer than 32768 payloads in any order); lost_for_good: with an AEAD that binds the nonce, nothing of the epoch is delivered once the sender is more than 32768 numbers ahead; demo_case and strict_case are concrete."},
 {"property": "C70", "status": "partial", "theorems": ["Verif.Props.Spoof.V12.hello_blocks", "Verif.Props.Spoof.V12.spoofed_random", "Verif.Props.Spoof.V12.alone_connects", "Verif.Props.Spoof.V13.hello_blocks", "Verif.Props.Spoof.V13.spoofed_random", "Verif.Props.Spoof.V13.alone_connects", "Verif.Props.Shake12.cookie_first_partial", "Verif.Props.Shake13.cookie_first_partial"], "note": "Refuted in both versions by a concrete execution (hello_blocks), with controls (alone_connects, spoofed_random): same client, no or a copied first hello. What holds for all executions is that the server goes on waiting and sends nothing but cookie requests (cookie_first_partial); a general completion theorem for honest clients is not proved."},
 {"property": "C71", "status": "proved", "theorems": ["Verif.Props.Schedule.handshake_secrets", "Verif.Props.Schedule.application_secrets", "Verif.Props.Schedule.next_secret", "Verif.Props.Schedule.epoch_keys", "Verif.Props.Schedule.verify_data", "Verif.Props.Schedule.srtp_keys", "Verif.Props.Schedule.apart", "Verif.Props.Schedule.client_exports", "Verif.Props.Schedule.server_exports", "Verif.Props.Schedule.toy_sound", "Verif.Props.Schedule.case13", "Verif.Props.Schedule.keying_len", "Verif.Props.Exported.client_exported13", "Verif.Props.Exported.server_exported13"], "note": "Model/Schedule writes the schedule out over HMAC and hash and fill13 puts it into the sessions. Provider errors of HMAC are not modelled. case13 is a whole handshake with it. Exported gives the keying material as a function of the key exchange's secret (for runs of the clients that Begins lists)."},
 {"property": "C72", "status": "proved", "theorems": ["Verif.Props.Schedule.master_secret", "Verif.Props.Schedule.key_block", "Verif.Props.Schedule.verify_data12", "Verif.Props.Schedule.srtp_keys12", "Verif.Props.Schedule.psk_injective", "Verif.Props.Schedule.client_exports12", "Verif.Props.Schedule.server_exports12", "Verif.Props.Schedule.toyOld_sound", "Verif.Props.Schedule.case12", "Verif.Props.Schedule.keying_len", "Verif.Props.Exported.client_exported12", "Verif.Props.Exported.server_exported12"], "note": "As C71 with fill12; E12 takes verify_data without the suite, so fill12 is told the suite whose hash it uses. case12 is a whole handshake with it. Exported gives the keying material as a function of the key exchange's secret; for AEADs with DecShort."},
 {"property": "C73", "status": "proved", "theorems": ["Verif.Props.Master12.client_master", "Verif.Props.Master12.server_master", "Verif.Props.Master12.case_connected", "Verif.Props.Master12.stale_share"], "note": "Connected: for AEADs whose plaintext is not longer than the ciphertext (DecShort). stale_share is the exception for failed attempts. That a premaster secret agrees with the peer's is not claimed beyond case_connected."},
 {"property": "C74", "status": "partial", "theorems": ["Verif.Props.Groups.client_group13", "Verif.Props.Groups.client_group12_partial", "Verif.Props.Groups.group_not_configured"], "note": "DTLS 1.3: proved. DTLS 1.2: refuted by group_not_configured; proved where the configuration leaves no group of the provider out."},
 {"property": "C75", "status": "partial", "theorems": ["Verif.Props.Retry13.retry_checked_partial", "Verif.Props.Retry13.suite_changes", "Verif.Props.Retry13.nothing_changes"], "note": "Proved: first attempt only, configured suite, version. Refuted: same suite in the ServerHello (suite_changes), a change in the ClientHello (nothing_changes)."},
 {"property": "C76", "status": "partial", "theorems": ["Verif.Props.Downgrade.offer_heard_partial", "Verif.Props.Downgrade.hybrid_in_transcript", "Verif.Props.Downgrade.downgraded", "Verif.Props.Downgrade.untouched", "Verif.Props.Downgrade.noticed", "Verif.Props.Downgrade.old_server"], "note": "Refuted where the DTLS 1.2 server uses cookies, which is the default (downgraded). Proved without a HelloVerifyRequest: the server whose Finished the client accepts acted on the hybrid ClientHello as it was sent."},
 {"property": "C77", "status": "partial", "theorems": ["Verif.Props.Sigs.client12_verifies", "Verif.Props.Sigs.offer12", "Verif.Props.Sigs.server12_signs_partial", "Verif.Props.Sigs.client13_verifies", "Verif.Props.Sigs.server13_verifies", "Verif.Props.Sigs.signs_anyway12", "Verif.Props.Sigs.signs12", "Verif.Props.Sigs.server_signs_anyway13", "Verif.Props.Sigs.client_signs_anyway13"], "note": "Accepting: proved for the DTLS 1.2 client and for both roles of 1.3 (lists of the two standard ClientHellos; the hybrid one announces the first two of the four that the 1.2 client accepts), refuted for the 1.2 server (signs_anyway12). Making: refuted for all; proved for the 1.2 server where its key can sign with one of the client's."},
 {"property": "C78", "status": "proved", "theorems": ["Verif.Props.Verify.client13_proved", "Verif.Props.Verify.server13_proved", "Verif.Props.Verify.client12_proved", "Verif.Props.Verify.server12_proved", "Verif.Props.Verify.verify_iff", "Verif.Props.Verify.verify_total", "Verif.Props.Verify.completes", "Verif.Props.Verify.crossed"], "note": "All roles and versions. The X.509 reader and the primitive (with its reading of key and signature) are parameters, the code around them is modelled."},
 {"property": "C79", "status": "proved", "theorems": ["Verif.Props.Fingerprint.same_string_iff", "Verif.Props.Fingerprint.format_injective", "Verif.Props.Fingerprint.format_reads", "Verif.Props.Fingerprint.format_length", "Verif.Props.Fingerprint.string_length"], "note": "SHA-256 is a parameter."},
 {"property": "C80", "status": "proved", "theorems": ["Verif.Props.Sign.server12_signs", "Verif.Props.Sign.client12_signs", "Verif.Props.Sign.signs13", "Verif.Props.Sign.selectSig_can", "Verif.Props.Sign.sign_iff", "Verif.Props.Sign.own_hash", "Verif.Props.Sign.completes", "Verif.Props.Sign.makers_differ"], "note": "Of the functions that make these messages, from every state. Key loading and the primitive are parameters; the match of certificate and key is a hypothesis, as the code does not check it."},
 {"property": "C81", "status": "proved", "theorems": ["Verif.Props.Cipher.decrypt_eq", "Verif.Props.Cipher.decrypt_total", "Verif.Props.Cipher.decrypt_ok", "Verif.Props.Cipher.makers_agree", "Verif.Props.Cipher.encrypt_length", "Verif.Props.Cipher.opened_encrypt", "Verif.Props.Cipher.opened_short", "Verif.Props.Cipher.suites12", "Verif.Props.Cipher.suites13", "Verif.Props.Cipher.dec_short", "Verif.Props.Cipher.suite_sane", "Verif.Props.Cipher.session_sound", "Verif.Props.Cipher.matched12", "Verif.Props.Cipher.matched13", "Verif.Props.Cipher.small13", "Verif.Props.Cipher.completes"], "note": "The primitive (AES-GCM, ChaCha20-Poly1305, AES-CCM on text and tag apart) is a parameter. The theorems also discharge what those on sessions assume of opening, suites and tag lengths (dec_short, suite_sane, session_sound, matched12, matched13, small13)."},
 {"property": "C82", "status": "partial", "theorems": ["Verif.Props.Mask.mask_rfc", "Verif.Props.Mask.makers_agree", "Verif.Props.Mask.sn_length", "Verif.Props.Mask.unmask_eq", "Verif.Props.Mask.unmask_total_partial", "Verif.Props.Mask.sample_chosen", "Verif.Props.Mask.chacha_refuses", "Verif.Props.Mask.chacha_gives", "Verif.Props.Mask.masks_match", "Verif.Props.Mask.demo_panics"], "note": "The mask, the agreement of the back ends and the lengths of keys are proved. Missing, because refuted: that no record makes the mask panic. unmask_total_partial proves it where the library gives a block for every counter; sample_chosen shows that a sender without keys chooses the counter; chacha_refuses and demo_panics show the panic for a library that counts like chacha20 0.9.1, which is outside the repository and modelled from memory."},
 {"property": "C83", "status": "partial", "theorems": ["Verif.Props.Fields.client12_checks", "Verif.Props.Fields.server12_checks", "Verif.Props.Fields.client13_checks", "Verif.Props.Fields.server13_checks", "Verif.Props.Fields.session_id_ignored", "Verif.Props.Fields.compressions_ignored", "Verif.Props.Fields.extensions_ignored"], "note": "client12_checks, server12_checks, client13_checks and server13_checks prove the first sentence. Missing, because refuted by runs in which both ends connect: the echo of the session id (session_id_ignored), other compression methods (compressions_ignored), extensions not asked for in ServerHello of both versions and in EncryptedExtensions (extensions_ignored)."},
 {"property": "C84", "status": "proved", "theorems": ["Verif.Props.Clock.beginning_right", "Verif.Props.Clock.beginning_panics", "Verif.Props.Clock.to_unix", "Verif.Props.Clock.monotone", "Verif.Props.Clock.random_at"], "note": "Instants and system times are integers; the system clock is assumed to run evenly between the two readings. The sessions of Model/Session12 draw 32 bytes for the random and leave the time out."},
 {"property": "C85", "status": "proved", "theorems": ["Verif.Props.Kx.rust_eq", "Verif.Props.Kx.complete_eq", "Verif.Props.Kx.numbers", "Verif.Props.Kx.others_refused", "Verif.Props.Kx.start_plain", "Verif.Props.Kx.shared_length", "Verif.Props.Kx.not_zero", "Verif.Props.Kx.agreed", "Verif.Props.Kx.makers_agree", "Verif.Props.Kx.start_fits", "Verif.Props.Kx.share_small", "Verif.Props.Kx.server12_secret", "Verif.Props.Kx.client12_secret", "Verif.Props.Kx.server13_secret", "Verif.Props.Kx.client13_secret", "Verif.Props.Kx.small_order_refused", "Verif.Props.Kx.completes"], "note": "The curves are parameters: that the order of the keys does not matter, lengths, and that own keys are points are assumed (Fit). agree_ephemeral of aws-lc-rs is one parameter, assumed to do as RustCrypto with keys written plainly and to give no zero secret of X25519, as the comment in the code says; so for that back end not_zero rests on the library. Nothing is assumed of keys written otherwise in aws-lc-rs. That making a key fails is left out."},
 {"property": "C86", "status": "partial", "theorems": ["Verif.Props.Prefer.same_groups", "Verif.Props.Prefer.prefers_partial", "Verif.Props.Prefer.order_ignored", "Verif.Props.Prefer.picks12", "Verif.Props.Prefer.picks13", "Verif.Props.Prefer.offers13", "Verif.Props.Prefer.best12_partial", "Verif.Props.Prefer.not_preferred", "Verif.Props.Prefer.would_be"], "note": "Proved: which groups are used (same_groups), what each server picks and the client offers (picks12, picks13, offers13), and the order where the caller's agrees with the provider's (prefers_partial, best12_partial). Missing, because refuted: the order of preference in general. order_ignored: lists with the same groups in any order have the same effect; not_preferred: ends whose callers both prefer P-256 connect with X25519 in both versions. In DTLS 1.3 a server follows the client's order of key shares in any case."},
 {"property": "C87", "status": "proved", "theorems": ["Verif.Props.Pool.pop_total", "Verif.Props.Pool.reuse_hidden", "Verif.Props.Pool.pools_alike", "Verif.Props.Pool.pop_shrinks"], "note": "The operations of Vec<u8> are modelled from their documentation. That the memory is not erased when a buffer with a secret is put back is outside of what can be observed. This justifies that the engines are modelled without pools."}
]}
