{"id": "C01", "title": "A record is accepted at most once", "statement": "Whatever the network replays, reorders or drops, the anti-replay filter lets the record with a given sequence number through at most once per epoch: once a number has been accepted, every later copy is refused, no matter how many other records were accepted in between.", "quantifier": "every finite sequence of record numbers (any 64-bit values, any order, any repetition) presented to a receive epoch", "why_tests_cant": "A test replays a few chosen numbers; the 64-bit shift register has 2^128 states and the failure would need one specific history.", "anchors": ["src/window.rs ReplayWindow::check", "src/window.rs ReplayWindow::update", "src/dtls13/engine.rs replay_check/replay_update", "src/dtls12/engine.rs replay_check/replay_update"]}
{"id": "C02", "title": "Fresh records inside the window are never refused as replays", "statement": "A record number that has not been accepted before and is newer than, or at most 63 behind, the newest accepted number is always let through; numbers 64 or more behind are always refused.", "quantifier": "every history of accepted numbers and every candidate number", "why_tests_cant": "Would need every history; off-by-one at the window edge or at number 0 only shows for particular histories.", "anchors": ["src/window.rs ReplayWindow"]}
{"id": "C03", "title": "Only authenticated records move the receive state", "statement": "A record that fails authentication (or is too short, or has an unknown epoch) changes neither the anti-replay state nor the expected-sequence state nor anything that later poll_output calls return; receiving any number of forged records leaves later authentic records exactly as acceptable as before.", "quantifier": "every engine state with encryption enabled and every datagram whose protected records all fail to open", "why_tests_cant": "Ranges over all byte strings an attacker can send and all receive states.", "anchors": ["src/dtls13/incoming.rs Record::parse", "src/dtls12/incoming.rs Record::parse"]}
{"id": "C04", "title": "Truncated sequence numbers are reconstructed correctly", "statement": "In DTLS 1.3, when a peer record's true sequence number is within half the truncated range (8 or 16 bits) of the next expected number, the receiver reconstructs exactly that number; the reconstructed number always agrees with the transmitted bits unless clamped at zero.", "quantifier": "all expected numbers, all true numbers within the half window, both truncation widths", "why_tests_cant": "2^48 x 2^16 cases; wrap-around and clamp boundaries.", "anchors": ["src/dtls13/engine.rs reconstruct_sequence", "src/dtls13/engine.rs resolve_sequence"]}
{"id": "C05", "title": "Two-bit epoch resolves to the one retained receive key it can mean", "statement": "After any number of received KeyUpdates the receiver holds at most four consecutive application receive epochs, ending with the newest; each of them is the one selected by its own low two bits, so no retained key is shadowed by another once application data is released.", "quantifier": "every number of key updates", "why_tests_cant": "Needs an inductive invariant over unboundedly many key updates.", "anchors": ["src/dtls13/engine.rs resolve_epoch", "src/dtls13/engine.rs update_recv_keys"]}
{"id": "C06", "title": "DTLS 1.3 never emits two records under the same key and nonce", "statement": "Over a whole connection no two protected records handed to the application for transmission (first transmissions, retransmissions, ACKs, alerts, key updates) use the same traffic key with the same sequence number, hence never the same AEAD nonce under one key.", "quantifier": "every finite interleaving of sends, retransmissions, ACKs, key updates, queue-full errors and closes", "why_tests_cant": "Nonce reuse is a property of the whole history of two or more events arbitrarily far apart.", "anchors": ["src/dtls13/engine.rs create_ciphertext_record", "src/dtls13/engine.rs flight_resend", "src/dtls13/engine.rs update_send_keys", "src/dtls13/engine.rs install_handshake_keys", "src/crypto/dtls_aead.rs Nonce::xor"]}
{"id": "C07", "title": "DTLS 1.3 sequence numbers never wrap", "statement": "No record is ever emitted with a sequence number above 2^48-2; when an epoch is exhausted the send call fails with an error and emits nothing.", "quantifier": "every state and every send operation", "why_tests_cant": "Exhausting 2^48 records cannot be tested.", "anchors": ["src/dtls13/engine.rs create_plaintext_record", "src/dtls13/engine.rs create_ciphertext_record"]}
{"id": "C08", "title": "DTLS 1.2 never emits two records under the same key and nonce", "statement": "Over a whole connection no two protected DTLS 1.2 records handed out for transmission use the same AEAD nonce.", "quantifier": "every finite interleaving of sends, retransmissions and closes", "why_tests_cant": "Property of whole histories; additionally depends on explicit-nonce generation.", "anchors": ["src/dtls12/engine.rs create_record_inner", "src/crypto/dtls_aead.rs Nonce::new", "src/crypto/dtls_aead.rs Nonce::xor"]}
{"id": "C09", "title": "Every emitted datagram fits the configured MTU", "statement": "Every packet returned by poll_output is at most config.mtu() bytes long ('The largest size UDP packets we will produce').", "quantifier": "every configuration accepted by the builder and every history of API calls", "why_tests_cant": "Packing depends on the running fill level of the last queued datagram, the message sizes and the MTU.", "anchors": ["src/dtls12/engine.rs create_record_inner", "src/dtls12/engine.rs create_handshake", "src/dtls13/engine.rs create_handshake", "src/config.rs ConfigBuilder::mtu"]}
{"id": "C10", "title": "Fragmented handshake messages are reassembled exactly", "statement": "For every handshake message, every MTU and every fill level of the outgoing datagrams, the fragments the sender produces reassemble at the receiver to exactly the original message type and body, and the sender's and receiver's transcript contributions for it are byte-identical.", "quantifier": "all message bodies below 2^24 bytes, all MTUs >= 64, all datagram fill levels, DTLS 1.2 and 1.3", "why_tests_cant": "Body, MTU and fill-level space is unbounded.", "anchors": ["src/dtls12/engine.rs create_handshake", "src/dtls13/engine.rs create_handshake", "src/dtls12/message/handshake.rs defragment", "src/dtls13/message/handshake.rs defragment_with_options"]}
{"id": "C11", "title": "Overlapping or re-fragmented retransmissions still reassemble (1.3)", "statement": "In DTLS 1.3, any collection of fragments cut consistently from one message, overlapping arbitrarily, that covers the message without gaps when ordered by offset reassembles to exactly that message, and never to anything else.", "quantifier": "all bodies and all gap-free overlapping fragment lists", "why_tests_cant": "Exponential number of overlap patterns.", "anchors": ["src/dtls13/message/handshake.rs defragment_with_options", "src/dtls13/engine.rs has_complete_handshake_with_seq"]}
{"id": "C12", "title": "Overlapping or re-fragmented retransmissions still reassemble (1.2)", "statement": "In DTLS 1.2, once fragments covering a whole handshake message have arrived, the message is delivered even if the peer re-fragmented it differently when retransmitting.", "quantifier": "all fragment lists covering the message", "why_tests_cant": "Exponential number of overlap patterns.", "anchors": ["src/dtls12/engine.rs has_complete_handshake_with_seq", "src/dtls12/engine.rs insert_incoming_handshake", "src/dtls12/message/handshake.rs defragment"]}
{"id": "C13", "title": "Handshake messages are consumed in order, each once", "statement": "The handshake layer consumes peer messages strictly in message-sequence order: never skips a number, never consumes the same number twice, whatever order, duplication or packing the datagrams arrive in.", "quantifier": "every finite sequence of handshake datagrams and consume attempts", "why_tests_cant": "All interleavings of arrival and consumption.", "anchors": ["src/dtls12/engine.rs next_handshake", "src/dtls12/engine.rs insert_incoming_handshake", "src/dtls13/engine.rs next_handshake", "src/dtls13/engine.rs advance_peer_handshake_seq"]}
{"id": "C14", "title": "A fully received handshake message is always delivered", "statement": "If every message of a flight has arrived (in any order, packed in datagrams in any way), the handshake makes progress and consumes all of them.", "quantifier": "every packing of a flight into datagrams and every arrival order", "why_tests_cant": "All packings and permutations.", "anchors": ["src/dtls13/engine.rs insert_incoming_handshake", "src/dtls13/engine.rs has_complete_handshake_with_seq", "src/dtls12/engine.rs insert_incoming_handshake"]}
{"id": "C15", "title": "DTLS 1.3 delivers only authenticated application data", "statement": "Every ApplicationData output is the content of a record that was opened successfully with one of the connection's application receive keys.", "quantifier": "every sequence of datagrams (attacker-chosen included) and API calls from connection start", "why_tests_cant": "Quantifies over all attacker inputs and timings, including datagrams injected before keys exist.", "anchors": ["src/dtls13/engine.rs poll_app_data", "src/dtls13/engine.rs enable_peer_encryption", "src/dtls13/engine.rs insert_incoming", "src/dtls13/incoming.rs Record::parse", "src/dtls13/message/record.rs parse_ciphertext"]}
{"id": "C16", "title": "DTLS 1.2 delivers only authenticated application data", "statement": "Every ApplicationData output is the content of a record that was opened successfully with the connection's receive key.", "quantifier": "every sequence of datagrams (attacker-chosen included) and API calls from connection start", "why_tests_cant": "Quantifies over all attacker inputs and timings, including datagrams injected before keys exist.", "anchors": ["src/dtls12/engine.rs poll_app_data", "src/dtls12/engine.rs enable_peer_encryption", "src/dtls12/incoming.rs Record::parse", "src/dtls12/message/record.rs parse"]}
{"id": "C17", "title": "No application data before the handshake completes", "statement": "poll_output never returns ApplicationData before the handshake has completed on this side (the point where Connected is queued).", "quantifier": "every history of datagrams and API calls", "why_tests_cant": "All histories including early data queued by the network.", "anchors": ["src/dtls12/engine.rs poll_app_data", "src/dtls13/engine.rs poll_app_data", "release_application_data"]}
{"id": "C18", "title": "Each received application record is delivered at most once", "statement": "One received record yields at most one ApplicationData output; polling again, polling with too small buffers, or replaying the datagram never produces it again.", "quantifier": "every interleaving of receives and polls", "why_tests_cant": "All interleavings.", "anchors": ["src/dtls12/engine.rs poll_app_data", "src/dtls13/engine.rs poll_app_data", "purge_handled_queue_rx"]}
{"id": "C19", "title": "Receive queue memory is bounded", "statement": "The number of datagrams buffered for reception never exceeds max_queue_rx; exceeding input yields ReceiveQueueFull instead of growth.", "quantifier": "every datagram history and every configured bound", "why_tests_cant": "Invariant over unbounded histories, including the re-queueing when encryption is enabled.", "anchors": ["src/dtls12/engine.rs insert_incoming", "src/dtls13/engine.rs insert_incoming", "enable_peer_encryption"]}
{"id": "C20", "title": "Transmit queue memory is bounded", "statement": "The number of datagrams waiting for transmission never exceeds max_queue_tx; a send that would exceed it fails with TransmitQueueFull and queues nothing.", "quantifier": "every history of sends, resends and polls", "why_tests_cant": "Invariant over unbounded histories.", "anchors": ["src/dtls12/engine.rs create_record_inner", "src/dtls13/engine.rs create_plaintext_record", "src/dtls13/engine.rs create_ciphertext_record"]}
{"id": "C21", "title": "BufferTooSmall loses nothing", "statement": "If poll_output answers BufferTooSmall{needed}, nothing is consumed and the next poll with a buffer of at least `needed` bytes returns exactly the pending item ('The pending output is retained until it can be emitted'); it never panics for a short buffer.", "quantifier": "every pending output and every buffer length", "why_tests_cant": "All buffer sizes and queue contents.", "anchors": ["src/lib.rs Output::BufferTooSmall", "src/dtls12/engine.rs poll_output", "src/dtls13/engine.rs poll_output", "LocalEvent::into_output"]}
{"id": "C22", "title": "No datagram makes the library panic", "statement": "handle_packet returns normally for every byte string in every reachable state.", "quantifier": "every byte string, every reachable state, both versions and version auto-sensing", "why_tests_cant": "All byte strings x all states.", "anchors": ["src/auto.rs server_hello_version_inner", "src/dtls12/engine.rs insert_incoming_non_handshake", "src/dtls13/incoming.rs", "src/dtls12/incoming.rs", "src/lib.rs handle_packet"]}
{"id": "C23", "title": "Malformed datagrams never surface as errors", "statement": "'Every returned Error is fatal' while malformed, truncated, undecryptable or replayed datagrams are silently dropped: handle_packet returns Ok for a datagram that is not a well-formed, acceptable DTLS message.", "quantifier": "every byte string that is not a sequence of well-formed records, every state", "why_tests_cant": "All byte strings.", "anchors": ["src/lib.rs docs on error handling", "src/error.rs InternalError::into_public_error", "src/lib.rs handle_pending_auto_client"]}
{"id": "C24", "title": "Unauthenticated datagrams cannot kill or desynchronise an established connection", "statement": "Once the handshake has completed, a datagram that contains no record authenticated with the connection keys never makes handle_packet return an error and never changes what later authentic datagrams achieve.", "quantifier": "every established state and every unauthenticated byte string", "why_tests_cant": "All attacker byte strings against all connected states.", "anchors": ["src/dtls13/engine.rs classify_record", "src/dtls13/engine.rs insert_incoming_handshake", "src/dtls12/engine.rs classify_record", "src/dtls12/engine.rs insert_incoming_handshake"]}
{"id": "C25", "title": "Record headers round-trip", "statement": "Every record the sender serialises is parsed back by the receiver to the same content type, epoch (its low two bits in DTLS 1.3 ciphertext), sequence number (low 16 bits in DTLS 1.3 ciphertext) and fragment, consuming exactly the serialised bytes.", "quantifier": "all content types, epochs, sequence numbers below 2^48, fragments below 2^16 bytes and trailing bytes", "why_tests_cant": "Field value space is 2^64 and beyond.", "anchors": ["src/dtls12/message/record.rs", "src/dtls13/message/record.rs", "src/util.rs be_u48"]}
{"id": "C26", "title": "Datagram splitting is exact and safe", "statement": "Splitting a datagram into records only ever cuts it into consecutive, non-overlapping pieces inside the datagram; a datagram built by concatenating well-formed records is split into exactly these records.", "quantifier": "every byte string", "why_tests_cant": "All byte strings.", "anchors": ["src/dtls12/incoming.rs Records::parse", "src/dtls13/incoming.rs Records::parse"]}
{"id": "C27", "title": "Handshake headers round-trip", "statement": "A handshake fragment written by the sender is read back with the same message type, total length, message sequence, fragment offset, fragment length and fragment bytes; a header or body cut short is reported as incomplete and never misread as another message.", "quantifier": "all header values in range and all bodies", "why_tests_cant": "Field value space.", "anchors": ["src/dtls12/message/handshake.rs", "src/dtls13/message/handshake.rs"]}
{"id": "C28", "title": "Inner content type survives padding", "statement": "For every content, every non-zero content type and every amount of zero padding, the DTLS 1.3 receiver recovers exactly that content and type; an all-zero inner plaintext is discarded.", "quantifier": "all contents, types and paddings", "why_tests_cant": "Unbounded.", "anchors": ["src/dtls13/incoming.rs recover_inner_content_type", "src/dtls13/engine.rs create_ciphertext_record"]}
{"id": "C29", "title": "Protected record round-trip (1.3)", "statement": "Any record protected by one side (any content, content type, epoch and sequence number within the reconstruction window) and delivered unmodified is accepted by the peer exactly with the sent content and type, whatever the sequence-number mask.", "quantifier": "all contents, states with matching keys and all AEAD schemes whose open inverts seal", "why_tests_cant": "All contents, states and cipher outputs.", "anchors": ["src/dtls13/engine.rs create_ciphertext_record", "src/dtls13/incoming.rs Record::parse", "src/dtls13/engine.rs decrypt_record"]}
{"id": "C30", "title": "Retransmission schedule and give-up", "statement": "An unanswered flight is retransmitted at most flight_retries times; successive waits double (up to the +-0.25 s jitter, never below 50 ms); after the last wait the next timeout reports a Timeout error. No flight is retransmitted before its timer expires.", "quantifier": "every start RTO, retry count, jitter sequence and sequence of handle_timeout times", "why_tests_cant": "All time sequences.", "anchors": ["src/timer.rs ExponentialBackoff", "src/dtls12/engine.rs handle_timeout", "src/dtls13/engine.rs handle_timeout"]}
{"id": "C31", "title": "The handshake deadline is enforced", "statement": "If the handshake has not completed within handshake_timeout of the first handle_timeout call, the first handle_timeout at or after that instant returns a Timeout error, regardless of how many flights were exchanged in between.", "quantifier": "every schedule of packets and timeouts", "why_tests_cant": "All schedules.", "anchors": ["src/dtls12/engine.rs handle_timeout", "src/dtls13/engine.rs handle_timeout"]}
{"id": "C32", "title": "poll_output's timeout is a real future deadline", "statement": "After handle_timeout(now) returned Ok and poll_output has been drained, the Timeout instant returned is later than `now`, so an application that sleeps until that instant never spins.", "quantifier": "every state and every instant", "why_tests_cant": "Depends on queue contents, timers and role at once.", "anchors": ["src/dtls13/engine.rs poll_timeout", "src/dtls13/engine.rs maybe_schedule_handshake_ack", "src/dtls12/engine.rs poll_timeout"]}
{"id": "C33", "title": "Retransmissions carry the same content under fresh record numbers", "statement": "A retransmitted flight contains exactly the not-yet-acknowledged records of the flight, in order, with identical plaintext content and epoch, each under a record number not used before.", "quantifier": "every saved flight and ACK history", "why_tests_cant": "All flights and ACK subsets.", "anchors": ["src/dtls12/engine.rs flight_resend", "src/dtls13/engine.rs flight_resend", "src/dtls13/engine.rs process_ack"]}
{"id": "C34", "title": "ACKs acknowledge exactly what they list", "statement": "Processing an ACK marks as acknowledged exactly those records of the current flight whose (epoch, sequence) it lists; a malformed ACK changes nothing; the ACK a receiver writes parses back to exactly the record numbers it lists.", "quantifier": "every flight and every ACK body", "why_tests_cant": "All byte strings and flights.", "anchors": ["src/dtls13/engine.rs process_ack", "src/dtls13/engine.rs send_ack_inner"]}
{"id": "C35", "title": "Send keys rotate only when the peer has acknowledged the KeyUpdate", "statement": "Application data stays on the old epoch until every record of the KeyUpdate flight has been acknowledged; then the epoch advances by exactly one per KeyUpdate sent, so that sender epoch and receiver epoch never drift apart by more than the one update in flight.", "quantifier": "every history of sends, key updates and ACKs", "why_tests_cant": "All interleavings of two rotations and loss patterns.", "anchors": ["src/dtls13/engine.rs process_ack", "src/dtls13/engine.rs create_key_update", "src/dtls13/client.rs await_application_data", "src/dtls13/server.rs await_application_data"]}
{"id": "C36", "title": "Key usage limit triggers a key update", "statement": "The automatic KeyUpdate is requested after at least three quarters of, and at the latest exactly at, the configured aead_encryption_limit encryptions under one application key.", "quantifier": "every limit, every random jitter and every number of sends", "why_tests_cant": "Default limit is 2^23; all random draws.", "anchors": ["src/dtls13/engine.rs jittered_aead_threshold", "src/dtls13/engine.rs create_ciphertext_record", "src/dtls13/engine.rs needs_key_update"]}
{"id": "C37", "title": "After close() nothing more is sent by the application", "statement": "After close() returned Ok, send_application_data always fails with ConnectionClosed, close() again is a no-op, and no application record is emitted that was not already queued; closing a connected session queues exactly one close_notify.", "quantifier": "every history after close", "why_tests_cant": "All histories.", "anchors": ["src/dtls12/client.rs close", "src/dtls12/server.rs close", "src/dtls13/client.rs close", "src/dtls13/server.rs close"]}
{"id": "C38", "title": "close() during the handshake is silent", "statement": "After close() during the handshake no further packet is ever emitted and no retransmission timer fires, whatever datagrams arrive later.", "quantifier": "every mid-handshake state and every later history", "why_tests_cant": "All histories after close.", "anchors": ["src/dtls12/engine.rs abort", "src/dtls13/engine.rs abort", "close"]}
{"id": "C39", "title": "close_notify ends the readable stream", "statement": "After an authenticated close_notify, application data that follows it is never delivered: in DTLS 1.2 any application record processed after it, in DTLS 1.3 any record with a greater (epoch, sequence); records before it are still delivered, and CloseNotify is reported once.", "quantifier": "every record order and history", "why_tests_cant": "All reorderings around the alert.", "anchors": ["src/dtls12/engine.rs classify_record", "src/dtls13/engine.rs classify_record", "src/dtls13/engine.rs poll_output"]}
{"id": "C40", "title": "Connected is reported once and only after the peer's Finished verified (1.2)", "statement": "A DTLS 1.2 client or server queues Connected at most once per connection, and only after a peer Finished whose verify_data equals the expected value has been consumed; a certificate-suite client additionally only after the server key exchange signature verified, and a server that received a client certificate only after CertificateVerify verified.", "quantifier": "every message history and every outcome of the cryptographic checks", "why_tests_cant": "All message orders (including attacker ones).", "anchors": ["src/dtls12/client.rs State", "src/dtls12/server.rs State"]}
{"id": "C41", "title": "Connected is reported once and only after the peer's Finished verified (1.3)", "statement": "A DTLS 1.3 client or server queues Connected at most once, and only after a peer Finished whose verify_data equals the expected value; the client additionally only after the server CertificateVerify verified, and a server that received a client certificate only after its CertificateVerify verified.", "quantifier": "every message history and every outcome of the cryptographic checks", "why_tests_cant": "All message orders (including attacker ones).", "anchors": ["src/dtls13/client.rs State", "src/dtls13/server.rs State"]}
{"id": "C42", "title": "require_client_certificate is enforced", "statement": "With require_client_certificate set ('Makes the server fail if the client does not send a certificate'), a certificate-mode server never reports Connected for a client that presented no certificate.", "quantifier": "every client message history", "why_tests_cant": "All message histories.", "anchors": ["src/config.rs require_client_certificate", "src/dtls12/server.rs await_certificate", "src/dtls13/server.rs await_certificate"]}
{"id": "C43", "title": "Cookie exchange is enforced", "statement": "With use_server_cookie set, a server never sends its ServerHello flight before it received a ClientHello carrying the cookie it computed for that client's random; a ClientHello without it only provokes the small stateless cookie reply.", "quantifier": "every history of ClientHello datagrams", "why_tests_cant": "All histories.", "anchors": ["src/dtls12/server.rs await_client_hello", "src/dtls12/server.rs verify_cookie", "src/dtls13/server.rs await_client_hello"]}
{"id": "C44", "title": "Negotiated parameters are within both sides' offers", "statement": "The cipher suite, key-exchange group and SRTP profile a server selects were offered by the client and are allowed by the server's configuration; preference order is respected; a client accepts only a suite it is configured to allow.", "quantifier": "every offer list and configuration", "why_tests_cant": "All lists.", "anchors": ["src/dtls12/server.rs await_client_hello", "src/dtls12/server.rs select_named_group", "src/dtls13/server.rs await_client_hello"]}
{"id": "C45", "title": "Version auto-sensing decides correctly", "statement": "For an auto-sensing client a ServerHello decides DTLS 1.3 exactly when its supported_versions extension selects 1.3, and DTLS 1.2 otherwise (HelloVerifyRequest included); other datagrams decide nothing.", "quantifier": "every byte string", "why_tests_cant": "All byte strings.", "anchors": ["src/auto.rs server_hello_version", "src/auto.rs server_hello_version_inner"]}
{"id": "C46", "title": "Hybrid ClientHello retransmission schedule", "statement": "While no server answer has arrived the auto-sensing client retransmits its ClientHello with waits 1,2,4,8,16,32,32,... seconds, exactly flight_retries times, then reports a Timeout error.", "quantifier": "every retry count and sequence of handle_timeout instants", "why_tests_cant": "All time sequences.", "anchors": ["src/auto.rs ClientPending::handle_timeout", "src/auto.rs ClientPending::poll_output"]}
{"id": "C47", "title": "PSK detection on a ClientHello is total and exact", "statement": "The server-side peek that decides whether a first ClientHello asks for PSK never reads outside the datagram and reports true exactly when the first suite offered by the well-formed ClientHello that the configuration allows is a PSK suite.", "quantifier": "every byte string", "why_tests_cant": "All byte strings.", "anchors": ["src/lib.rs client_hello_handshake", "src/lib.rs client_hello_wants_psk"]}
{"id": "C48", "title": "Data queued before connect is sent once, in order", "statement": "Application data passed to send_application_data before the connection is up is transmitted exactly once, in call order, when the handshake completes.", "quantifier": "every list of queued messages and every queue configuration", "why_tests_cant": "All lists and queue bounds.", "anchors": ["src/dtls12/client.rs await_application_data", "src/dtls12/server.rs await_application_data", "src/dtls13/client.rs await_application_data"]}
{"id": "C49", "title": "A built configuration is usable", "statement": "Config::builder().build() succeeds only for configurations with MTU >= 64, non-zero AEAD limit, at least one usable cipher suite, and a usable key-exchange group whenever a suite needs one; with any such MTU handshake fragmentation always makes progress.", "quantifier": "every builder input", "why_tests_cant": "All combinations.", "anchors": ["src/config.rs ConfigBuilder::build", "create_handshake"]}
{"id": "C50", "title": "Application payload sizes are preserved or refused", "statement": "send_application_data either emits a record whose length field equals the payload length (so the peer can parse it) or returns an error.", "quantifier": "every payload length", "why_tests_cant": "Payload lengths beyond 65535 are not tested.", "anchors": ["src/dtls12/engine.rs create_record_inner", "src/dtls13/engine.rs create_ciphertext_record"]}
{"id": "C51", "title": "Key derivation inputs are unambiguous", "statement": "The HKDF label encoding used by the DTLS 1.3 key schedule is injective in (length, label, context), and the TLS 1.2 PRF returns exactly the requested number of bytes, each request being a prefix of any longer one.", "quantifier": "all labels, contexts and lengths", "why_tests_cant": "Unbounded.", "anchors": ["src/crypto/prf_hkdf.rs"]}
{"id": "C52", "title": "AEAD nonces and additional data are unambiguous", "statement": "The nonce is injective in the sequence number for a fixed IV, and the DTLS 1.2 additional data is injective in (epoch, sequence number, content type, length).", "quantifier": "all sequence numbers below 2^48, epochs, types, lengths", "why_tests_cant": "2^64 space.", "anchors": ["src/crypto/dtls_aead.rs Nonce::xor", "src/crypto/dtls_aead.rs Nonce::new", "src/crypto/dtls_aead.rs Aad::new_dtls12"]}
{"id": "C53", "title": "An established connection does not time out as a handshake", "statement": "After poll_output returned Connected, no handle_timeout returns a handshake Timeout error, however late it is called.", "quantifier": "every session, role, history and instant", "why_tests_cant": "Needs runs longer than the handshake timeout after every possible history.", "anchors": ["src/dtls13/engine.rs handle_timeout", "src/dtls13/client.rs await_application_data", "src/dtls13/server.rs await_finished", "src/dtls12/engine.rs flight_stop_resend_timers"]}
{"id": "C54", "title": "Role switching gives a working endpoint", "statement": "A Dtls value turned into a server or client by set_active before the first packet behaves exactly like one constructed in that role: it uses that role's send and receive keys and message order.", "quantifier": "every construction path and every later history", "why_tests_cant": "All histories times construction paths.", "anchors": ["src/lib.rs set_active", "src/dtls13/client.rs into_server", "src/dtls13/server.rs into_client", "src/dtls12/server.rs into_client"]}
{"id": "C55", "title": "Following the reported timeouts retransmits", "statement": "An application that calls handle_timeout exactly at the instants poll_output reports retransmits an unanswered flight before the handshake deadline.", "quantifier": "every flight of every handshake", "why_tests_cant": "Tests call handle_timeout on a fixed grid of instants instead of those reported.", "anchors": ["src/dtls12/engine.rs poll_timeout", "src/dtls13/engine.rs poll_timeout", "src/lib.rs Output::Timeout"]}
{"id": "C56", "title": "Received KeyUpdates are acknowledged", "statement": "A connected DTLS 1.3 endpoint that processes a KeyUpdate acknowledges its record, and acknowledges it again when the peer retransmits it, so that with datagrams eventually arriving the KeyUpdate completes and the connection survives.", "quantifier": "every packing of records into datagrams, every loss of ACKs", "why_tests_cant": "Tests send KeyUpdates in datagrams of their own over links that lose no ACK.", "anchors": ["src/dtls13/engine.rs insert_incoming", "src/dtls13/engine.rs insert_incoming_handshake", "src/dtls13/engine.rs send_ack"]}
{"id": "C57", "title": "Handshake messages arrive as they were sent", "statement": "The body of every handshake message an endpoint writes (hellos with their extensions, HelloRetryRequest, key exchanges, certificates, CertificateRequest, CertificateVerify, Finished) is read by the peer's parser with exactly the values written and no bytes left over. The hybrid ClientHello is read by servers of both versions.", "quantifier": "every configuration the builder accepts, every random, cookie, key, certificate and signature", "why_tests_cant": "Lengths, optional parts and configurations multiply; tests use a handful of fixed ones.", "anchors": ["src/dtls12/message", "src/dtls13/message", "src/auto.rs", "src/util.rs"]}
{"id": "C58", "title": "Unknown entries of a hello make no difference", "statement": "Cipher suites, compression methods, groups, signature schemes, SRTP profiles, versions, key shares and extensions that an endpoint does not know do not change how it reads the message: it sees exactly the known ones in the order sent, and whether it refuses the message depends on the known ones only.", "quantifier": "every list of entries that fits the length fields", "why_tests_cant": "Unbounded lists of arbitrary values in arbitrary order.", "anchors": ["src/util.rs many0 many1", "src/dtls12/message/client_hello.rs parse", "src/dtls13/message/client_hello.rs parse_with_options", "src/dtls13/message/extensions"]}
{"id": "C59", "title": "Only well-formed handshake messages are taken", "statement": "Whatever body an endpoint takes from the network for a handshake message is, to the last byte, an encoding the specifications allow: every inner length is right, nothing follows, and the fields handed to the state machine are the ones encoded. The same holds for the data of every extension it reads.", "quantifier": "every byte string, message type, negotiated suite and engine state", "why_tests_cant": "All byte strings; tests try a few truncations.", "anchors": ["src/dtls12/message", "src/dtls13/message", "src/dtls12/message/handshake.rs defragment", "src/dtls13/message/handshake.rs defragment_with_options", "src/dtls13/client.rs parse_certificate_request"]}
{"id": "C60", "title": "Endpoints with the same Finished agree (1.2)", "statement": "Whatever an attacker does on the network: where a DTLS 1.2 client accepts the Finished a server sent, or the server accepts the one the client sent, both use the same cipher suite, SRTP profile, client random, server random and master secret. Once both have reported Connected they have also reported the same keying material for the same profile, or both none.", "quantifier": "every pair of executions (any calls, datagrams, orders, losses), every configuration of either side, plain and auto-sensed clients; verify_data does not collide between the two sessions and transcripts are below 16 MiB", "why_tests_cant": "A downgrade needs one particular manipulation of the messages; tests run honest networks.", "anchors": ["src/dtls12/client.rs", "src/dtls12/server.rs", "src/dtls12/engine.rs transcript", "src/auto.rs"]}
{"id": "C61", "title": "Keying material is right and reported once (1.2)", "statement": "A DTLS 1.2 endpoint reports keying material at most once, directly after Connected, and exactly when an SRTP profile was negotiated and the derivation succeeds. It is the key material that suite, profile, master secret, client random and server random give, in that order for both roles, and the profile reported is the negotiated one.", "quantifier": "every sequence of calls and datagrams, both roles, plain and auto-sensed clients", "why_tests_cant": "Ordering and multiplicity over unbounded executions.", "anchors": ["src/dtls12/client.rs", "src/dtls12/server.rs", "src/dtls12/context.rs extract_srtp_keying_material"]}
{"id": "C62", "title": "A repeated flight of the peer is answered with the own flight, once per datagram", "statement": "A datagram of handshake messages that were all taken before has one of two effects. If it contains the beginning of a message that asks for an answer (1.2: ClientHello, HelloVerifyRequest, ServerHelloDone, ClientKeyExchange, unless the peer is known to be done; 1.3: ClientHello, Finished), the saved flight - in 1.3 what is not acknowledged of it - is queued again, once. Otherwise nothing changes. Nothing of the datagram is kept for later.", "quantifier": "every engine state with room in the receive queue, every datagram of up to 8 (1.2) or 16 (1.3) old messages or fragments", "why_tests_cant": "Every combination of repeated fragments and every state; tests repeat whole flights in one state.", "anchors": ["src/dtls12/engine.rs insert_incoming_handshake", "src/dtls13/engine.rs insert_incoming_handshake", "src/dtls12/message/handshake.rs dupe_triggers_resend", "src/dtls13/message/handshake.rs dupe_triggers_resend"]}
{"id": "C63", "title": "Endpoints with the same Finished agree (1.3)", "statement": "Whatever an attacker does on the network: where a DTLS 1.3 client accepts the Finished a server sent, both use the same cipher suite, SRTP profile, client and server handshake traffic secret, handshake secret and exporter secret, and once both have reported Connected they have reported the same keying material for the same profile, or both none. Where the server accepts the Finished a client sent, both use the same cipher suite, SRTP profile and handshake secrets.", "quantifier": "every pair of executions (any calls, datagrams, orders, losses, with and without HelloRetryRequest), every configuration of either side, plain and auto-sensed endpoints; verify_data and traffic secrets do not collide between the two sessions and transcripts are below 16 MiB", "why_tests_cant": "A downgrade needs one particular manipulation of the messages; tests run honest networks.", "anchors": ["src/dtls13/client.rs", "src/dtls13/server.rs", "src/dtls13/engine.rs transcript", "src/auto.rs"]}
{"id": "C64", "title": "Keying material is right and reported once (1.3)", "statement": "A DTLS 1.3 endpoint reports keying material at most once, directly after Connected, and exactly when an SRTP profile was negotiated and the derivation succeeds. It is the key material that suite, profile and exporter secret give, and that secret is the one derived from the handshake secret and the messages up to and including the server's Finished.", "quantifier": "every sequence of calls and datagrams, both roles, plain and auto-sensed endpoints", "why_tests_cant": "Ordering and multiplicity over unbounded executions.", "anchors": ["src/dtls13/client.rs", "src/dtls13/server.rs", "src/dtls13/engine.rs extract_srtp_keying_material"]}
{"id": "C65", "title": "Every call returns", "statement": "No call on a Dtls value runs for ever: the handshake loop of make_progress, the loops that cut handshake messages and datagrams into records, and the loops that read datagrams all end, for every datagram, time and state. In particular no peer can keep an endpoint busy inside one call, whatever it sends (repeated HelloVerifyRequest or HelloRetryRequest, fragments in any order). make_progress changes its state at most 40 times before it returns.", "quantifier": "every value of the Dtls type in any state with an MTU of at least 64 and suites that add at most 24 bytes, every call; and every execution from every constructor with any configuration that builds", "why_tests_cant": "A loop without end needs one particular state of the handshake and of the queues; non-termination is not observable by a finite test.", "anchors": ["src/lib.rs Dtls", "src/dtls12/client.rs make_progress", "src/dtls12/server.rs make_progress", "src/dtls13/client.rs make_progress", "src/dtls13/server.rs make_progress", "src/dtls12/engine.rs create_handshake", "src/dtls13/engine.rs create_handshake"]}
{"id": "C66", "title": "Polling hands out everything once and comes to an end", "statement": "Whatever was called before, calling poll_output again and again with a buffer that has room hands out exactly what waits \u2014 the events, then the received application data (once the handshake is done), then the datagrams to send, then the peer's close_notify \u2014 each once and in order, and from then on Timeout with the same time until another call is made. With a buffer that is too small for the first thing waiting the caller is told the size needed and nothing is lost; poll_output panics only if a certificate is to be reported that does not fit.", "quantifier": "every execution of both versions and roles, plain and auto-sensed, every number of polls and every buffer size", "why_tests_cant": "A loop over poll_output that never sees Timeout, or an output lost or given twice, needs a particular mix of queues; tests poll in the usual places.", "anchors": ["src/dtls12/engine.rs poll_output", "src/dtls13/engine.rs poll_output", "src/dtls12/client.rs poll_output", "src/dtls12/server.rs poll_output", "src/dtls13/client.rs poll_output", "src/dtls13/server.rs poll_output", "LocalEvent::into_output"]}
{"id": "C67", "title": "Application data crosses a DTLS 1.2 connection unchanged", "statement": "Between two connected DTLS 1.2 sessions that hold the same keys, over a network that loses, repeats and reorders datagrams at will, the receiving application is handed every payload one of whose datagrams arrives, exactly as it was given to send_application_data, once, at its first arrival, unless a payload sent 64 places later or more arrived before it; and it is handed nothing else.", "quantifier": "every pair of connected idle sessions with matching keys in either direction, every list of payloads that fit a record and the poll buffer, and every list of arrivals, while record numbers last", "why_tests_cant": "A mismatch of nonce, additional data, explicit nonce or window between the two sides may show only for particular lengths, record numbers or orders of arrival; tests send a few payloads in order.", "anchors": ["src/dtls12/engine.rs create_record_inner", "src/dtls12/incoming.rs Record::parse", "src/dtls12/engine.rs poll_output", "src/dtls12/client.rs send_application_data", "src/dtls12/server.rs send_application_data", "src/window.rs ReplayWindow"]}
{"id": "C68", "title": "A call refused for a full transmit queue can be repeated", "statement": "When a call returns TransmitQueueFull, nothing is lost: once the waiting datagrams have been polled, the application can go on. A refused send_application_data or close has changed nothing and is refused only while the queue is full; after a refused handle_packet or handle_timeout the handshake continues as if the queue had had room.", "quantifier": "every state of both versions and roles, every payload; for handle_packet and handle_timeout every execution", "why_tests_cant": "The queue fills only if the application delays polling at a particular point of a flight; tests poll after every call.", "anchors": ["Error::TransmitQueueFull", "src/dtls12/engine.rs create_record_inner", "src/dtls13/engine.rs create_ciphertext_record", "src/dtls13/engine.rs flight_resend", "src/dtls13/server.rs send_server_hello", "send_application_data", "close"]}
{"id": "C69", "title": "Application data crosses a DTLS 1.3 connection unchanged", "statement": "Between two connected DTLS 1.3 sessions where the receiver holds the keys of the sender's epoch, over a network that loses, repeats and reorders datagrams, the receiving application is handed every payload one of whose datagrams arrives, exactly as it was given to send_application_data, once, at its first arrival, unless a payload sent 64 places later or more arrived before it; and it is handed nothing else. This holds as long as no arriving record number is 32768 or more away from the one after the newest received; past that distance it fails for the rest of the epoch.", "quantifier": "every pair of connected idle sessions with matching keys in either direction and any epoch, every list of payloads that fit a record and the poll buffer, and every list of arrivals, while record numbers last", "why_tests_cant": "A mismatch of nonce, additional data, record-number mask, padding, epoch bits or reconstruction between the two sides may show only for particular lengths, record numbers or orders of arrival; tests send a few payloads in order.", "anchors": ["src/dtls13/engine.rs create_ciphertext_record", "src/dtls13/incoming.rs Record::parse", "src/dtls13/engine.rs reconstruct_sequence", "src/dtls13/engine.rs resolve_epoch", "src/dtls13/engine.rs poll_output", "send_application_data", "src/window.rs ReplayWindow"]}
{"id": "C70", "title": "A ClientHello without cookie does not stand in the way of a client that comes after it", "statement": "A server that requires cookies and is given a ClientHello without cookie by someone else still completes a handshake with an honest client that starts afterwards, over a network that loses nothing.", "quantifier": "every ClientHello without a valid cookie given first, every honest client, both protocol versions", "why_tests_cant": "Tests give the server the hellos of one client; the state that a rejected hello leaves behind (message numbers, saved flight, transcript) shows only when another client follows on the same server object.", "anchors": ["src/dtls12/engine.rs:1088 reset_server_for_hello_verify_request", "src/dtls12/server.rs:356-389", "src/dtls12/engine.rs:283 dupe triggers resend", "src/dtls13/engine.rs:1948 reset_for_hello_retry", "src/dtls13/server.rs:568-600", "src/dtls13/engine.rs:390 dupe triggers resend"]}
{"id": "C71", "title": "The DTLS 1.3 key schedule is the RFC's", "statement": "Handshake, application, exporter and updated traffic secrets, record keys, IVs and record-number keys, Finished verify_data and the exported SRTP keying material are those of RFC 8446 sections 4.4.4 and 7.1 to 7.5 with the labels of RFC 9147, none of these derivations fails, no two derivations from one secret use the same label structure, and the keying material an application is handed by either side is that exporter over the transcript up to the server's Finished, of the length of its SRTP profile.", "quantifier": "every HMAC and hash with 32 or 48 bytes of output, every shared secret and transcript; every history of calls of a client or server", "why_tests_cant": "Two endpoints of the same code agree with each other under a wrong label, order or transcript; test vectors pin a few inputs and one hash length.", "anchors": ["src/dtls13/engine.rs derive_handshake_secrets", "derive_application_secrets", "derive_next_traffic_secret", "derive_epoch_keys", "compute_verify_data", "extract_srtp_keying_material", "Output::KeyingMaterial"]}
{"id": "C72", "title": "The DTLS 1.2 key schedule is the RFC's", "statement": "The extended master secret, the key block and its division into the keys and IVs of the two directions, verify_data and the exported SRTP keying material are those of RFC 5246, 7627 and 5705; the parts of the key block do not overlap and leave nothing over; different pre-shared keys give different premaster secrets; and the keying material an application is handed by either side is that exporter over the session's master secret and randoms, of the length of its SRTP profile.", "quantifier": "every HMAC with a fixed output length, every suite's lengths, all secrets, randoms and transcripts; every history of calls of a client or server", "why_tests_cant": "Both endpoints of the same code would agree on a key block cut at the wrong places or a seed in the wrong order; tests use a few suites.", "anchors": ["src/dtls12/context.rs derive_extended_master_secret", "derive_keys", "generate_verify_data", "extract_srtp_keying_material", "compute_psk_pre_master_secret", "Output::KeyingMaterial"]}
{"id": "C73", "title": "The DTLS 1.2 master secret comes from this handshake's key exchange", "statement": "Once a DTLS 1.2 session has derived keys, and once it reports Connected, its master secret is the extended master secret of two things: the transcript up to and including the ClientKeyExchange, and the premaster secret belonging to that ClientKeyExchange. With a PSK suite the premaster secret is RFC 4279's for the key the resolver gives for the identity sent, and a server that does not know the identity never connects. Otherwise it is the key agreement of the session's own key exchange with the peer's share: at the client the share in a ServerKeyExchange that stands in that transcript and is signed under the server's certificate, at the server the share in the ClientKeyExchange, with the server's own share signed and sent before. The own share sent is the one of that key exchange unless an earlier attempt was refused or failed.", "quantifier": "every history of calls of a client or server, every configuration, provider and peer", "why_tests_cant": "A session hash taken one message early, a share from another message or a stale key exchange only shows in orders of messages and failures the tests do not produce; two endpoints of the same code agree on a wrong hash.", "anchors": ["src/dtls12/context.rs process_ecdh_params", "compute_shared_secret", "init_ecdh_server", "compute_psk_pre_master_secret", "derive_extended_master_secret", "src/dtls12/client.rs send_client_key_exchange", "src/dtls12/server.rs await_client_key_exchange", "Output::Connected"]}
{"id": "C74", "title": "A client only uses a key-exchange group it is configured for", "statement": "The group of the key exchange a client connects with is one of those its configuration allows, which are the ones it offers in its ClientHello; a server that answers in another group is refused.", "quantifier": "every configuration, server and history of calls, both versions", "why_tests_cant": "Test servers choose among the offered groups; only a server that ignores the offer shows that nobody checks.", "anchors": ["src/dtls12/context.rs process_ecdh_params", "src/dtls12/client.rs await_server_key_exchange_ecdhe", "src/config.rs kx_groups", "src/dtls13/client.rs await_server_hello"]}
{"id": "C75", "title": "A client follows a HelloRetryRequest only as RFC 8446 allows", "statement": "A DTLS 1.3 client sends a second ClientHello after at most one HelloRetryRequest, which must name a configured suite and DTLS 1.3 and must change something: a cookie, or a group offered for which no share was sent. The ServerHello that follows must keep the suite of the HelloRetryRequest.", "quantifier": "every session state, server and configuration", "why_tests_cant": "Test servers send well-formed HelloRetryRequests; what is not checked only shows with a server that breaks the rules.", "anchors": ["src/dtls13/client.rs await_server_hello", "src/dtls13/client.rs send_client_hello"]}
{"id": "C76", "title": "An attacker cannot bring two DTLS 1.3 endpoints down to DTLS 1.2", "statement": "An auto-sensing client and an auto-sensing server whose configurations both allow DTLS 1.3 do not both report Connected with DTLS 1.2, whatever is done to the datagrams between them.", "quantifier": "every interference with the datagrams", "why_tests_cant": "Tests pair endpoints over a faithful or lossy network; a downgrade needs an attacker who changes a chosen byte.", "anchors": ["src/lib.rs handle_pending_auto_client", "src/lib.rs handle_pending_auto_server", "src/auto.rs server_hello_version", "src/dtls12/client.rs await_hello_verify_request", "src/dtls12/server.rs await_client_hello"]}
{"id": "C77", "title": "Signatures are made and accepted only with algorithms the verifier announced", "statement": "Every signature an endpoint makes in a handshake uses an algorithm from the list its peer announced (the ClientHello's signature_algorithms, or the CertificateRequest's), and every signature it accepts uses one from the list it announced itself.", "quantifier": "every configuration, key, peer and sequence of calls, in both roles and versions", "why_tests_cant": "Tests pair endpoints that announce the same fixed list; the claim is about every list a peer may announce and every algorithm it may sign with.", "anchors": ["src/dtls12/server.rs select_ske_signature_algorithm", "src/dtls12/server.rs await_certificate_verify", "src/dtls12/client.rs await_server_key_exchange", "src/dtls13/client.rs await_certificate_verify", "src/dtls13/server.rs await_certificate_verify"]}
{"id": "C78", "title": "A certificate peer is accepted only on a signature the curve primitive verified with its certificate's key", "statement": "When an endpoint reports Connected after a handshake with certificates, the elliptic-curve primitive has accepted a signature of the peer over this handshake (1.2 client: both randoms and the key exchange; otherwise the transcript before the CertificateVerify) under the public key in the first certificate the peer sent. The signature is ECDSA with SHA-256 or SHA-384 and the key is an EC key on P-256 or P-384; in DTLS 1.3 scheme, curve and hash belong together. No input makes the verification panic.", "quantifier": "every certificate, signature, algorithm, peer and sequence of calls, both back ends", "why_tests_cant": "Tests verify a few stored certificates and signatures; the claim covers every combination of key type, curve, hash and scheme a peer may send.", "anchors": ["src/crypto/provider.rs check_verify_scheme", "src/crypto/provider.rs cert_named_group", "src/crypto/rust_crypto/sign.rs verify_signature", "src/crypto/aws_lc_rs/sign.rs verify_signature", "src/dtls13/client.rs verify_scheme_curve", "src/dtls13/client.rs signature_scheme_to_components"]}
{"id": "C79", "title": "Fingerprint strings are unambiguous", "statement": "fingerprint_str gives two certificates the same string exactly if their SHA-256 hashes are the same; the string is pairs of upper-case hexadecimal digits separated by colons, in the order of the bytes, and 95 characters long.", "quantifier": "every certificate", "why_tests_cant": "Tests format one or two fingerprints; injectivity is about all pairs.", "anchors": ["src/certificate.rs format_fingerprint", "src/certificate.rs fingerprint_str"]}
{"id": "C80", "title": "A signature an endpoint makes is one its peer's checks accept", "statement": "If the certificate of an endpoint holds the public key of its private key, and the primitive verifies what it signs, then every ServerKeyExchange and CertificateVerify it makes names ECDSA with SHA-256 or SHA-384 and a hash the key signs with, carries a signature over the right content, and passes the algorithm, curve and signature checks of the peer. Whatever list of algorithms the peer sends, a DTLS 1.2 server never asks its key for a hash the key does not support.", "quantifier": "every key (back end and curve), every state of a session, every list of signature algorithms of the peer", "why_tests_cant": "Tests run a handshake per back end with one key and the library's own list; the list of the peer is arbitrary.", "anchors": ["src/crypto/rust_crypto/sign.rs EcdsaSigningKey", "src/crypto/aws_lc_rs/sign.rs EcdsaSigningKey", "src/dtls12/server.rs select_ske_signature_algorithm", "src/dtls12/client.rs handshake_create_certificate_verify", "src/dtls13/client.rs handshake_create_certificate_verify"]}
{"id": "C81", "title": "The ciphers of both back ends open exactly what was sealed, in place and without panics", "statement": "Cipher::encrypt lengthens a record by the tag length of its suite. Cipher::decrypt on a buffer succeeds exactly if the buffer is at least a tag long and the primitive accepts its last bytes as tag of the others; it leaves the plaintext at the start, a tag shorter, and does not touch the slice behind the record; anything else is an error, never a panic. Both back ends decrypt the same, and each what the other encrypted. For each suite the cipher takes keys of the length the key schedule cuts, and fixed IV and explicit nonce make 12 bytes.", "quantifier": "every cipher, suite, back end, key, nonce, additional data and buffer", "why_tests_cant": "Tests encrypt and decrypt a few records per suite; boundaries of short buffers and longer slices and the agreement of back ends are about all inputs.", "anchors": ["src/crypto/rust_crypto/cipher_suite.rs", "src/crypto/aws_lc_rs/cipher_suite.rs", "src/crypto/ccm_cipher.rs", "src/buffer.rs TmpBuf"]}
{"id": "C82", "title": "Record numbers are masked as RFC 9147 says, the same in both back ends, and no received record makes the mask panic", "statement": "encrypt_sn gives, in the bytes that are used, the mask of RFC 9147, section 4.2.3, for each suite, key of its length and sample; the back ends agree, so an end reads the record numbers of a peer with the other back end; keys for masks come out of the key schedule with the length the suite needs. A receiver does not panic over the mask of any record. The last sentence is refuted for TLS_CHACHA20_POLY1305_SHA256 with RustCrypto under the counting of version 0.9.1 of the chacha20 crate (as we know it; it is not part of the repository): a datagram whose ciphertext begins with four bytes 255, sent by anybody, makes a receiver panic.", "quantifier": "every suite, key and sample of sixteen bytes, every state of a receiving engine and every record", "why_tests_cant": "Tests mask a few records; one counter in 2^32 is refused by the library, and random ciphertexts do not hit it.", "anchors": ["src/crypto/rust_crypto/cipher_suite.rs encrypt_sn", "src/crypto/aws_lc_rs/cipher_suite.rs encrypt_sn, aes_ecb_encrypt", "src/dtls13/incoming.rs Record::parse", "src/dtls13/engine.rs decrypt_sequence_number, create_record"]}
{"id": "C83", "title": "Hello messages with a value the RFC forbids are refused", "statement": "A client leaves the ServerHello behind, and a server the ClientHello, only if the version field is that of DTLS 1.2 and null compression is named or offered; a DTLS 1.3 client only if supported_versions is DTLS 1.3; a DTLS 1.3 server only if the legacy cookie is empty. A DTLS 1.3 client also refuses a ServerHello that does not echo its session id, a DTLS 1.3 server a ClientHello with any other compression method, and clients of both versions refuse extensions they did not ask for. The last sentence is refuted in all its parts.", "quantifier": "every state of a session and every message its engine hands over, for each of the four roles", "why_tests_cant": "Tests play well-behaved peers; each of these fields is only ever wrong on purpose.", "anchors": ["src/dtls13/client.rs await_server_hello", "src/dtls13/server.rs await_client_hello", "src/dtls12/client.rs await_server_hello", "src/dtls12/server.rs await_client_hello", "src/dtls13/message/server_hello.rs ServerHello::parse", "src/dtls12/message/server_hello.rs ServerHello::parse"]}
{"id": "C84", "title": "A DTLS 1.2 random begins with the time the caller's clock shows", "statement": "The pair of an instant and a system time that the library freezes when it first needs it is found, lies at most an hour back, and differs from the true pair by no more than the time between two looks at the clock; it panics only on a platform that cannot represent the instant one second ago. Conversion of the caller's instants keeps differences exactly, never decreases, counts instants before the frozen one as that one, and panics only for a clock before 1970. Random::new_with_time has 32 bytes: the seconds since 1970 modulo 2^32, then the 28 bytes drawn.", "quantifier": "every reading of the clocks, every instant a caller passes and all drawn bytes", "why_tests_cant": "Tests run on a machine that has been up for long and whose clock is right; the frozen pair exists once per process.", "anchors": ["src/time_tricks.rs BEGINNING_OF_TIME, to_unix_duration", "src/types.rs Random::new_with_time", "src/dtls12/client.rs handle_timeout", "src/dtls12/server.rs handle_timeout"]}
{"id": "C85", "title": "Both ends of a key exchange have the same secret, and it is never a zero secret of X25519", "statement": "start_exchange gives public keys of 32, 65 and 97 bytes for X25519, P-256 and P-384, written as RFC 8446 section 4.2.8.2 says, and refuses other groups. If two ends have each other's public key, complete gives both the same secret, of 32, 32 or 48 bytes, in whichever back ends they run; only with X25519 and a secret of zero does it give none, and then to both. Whatever bytes the peer sends, complete never gives a zero secret for X25519, and with RustCrypto refuses keys of X25519 that are not 32 bytes. For keys written plainly the back ends accept the same and compute the same.", "quantifier": "every pair of back ends, all private keys, all bytes sent by a peer and every group number", "why_tests_cant": "Tests try one key of small order in one back end; the build has one back end at a time, so ends with different ones do not meet.", "anchors": ["src/crypto/rust_crypto/kx_group.rs EcdhKeyExchange::new, complete", "src/crypto/aws_lc_rs/kx_group.rs EcdhKeyExchange::new, complete"]}
{"id": "C86", "title": "The order given to ConfigBuilder::kx_groups is the order of preference", "statement": "As the documentation of ConfigBuilder::kx_groups says, only groups in both the caller's list and the provider are used, and of those the first in the caller's list that the peer also has is used.", "quantifier": "every provider, every list a caller passes, every list of groups or key shares a peer sends", "why_tests_cant": "Tests configure groups in the provider's order or one group only, where a list that is merely a filter cannot be told from one that is an order.", "anchors": ["src/config.rs Config::kx_groups, ConfigBuilder::kx_groups", "src/dtls12/server.rs select_named_group", "src/dtls13/server.rs await_client_hello"]}
{"id": "C87", "title": "Reused buffers show nothing of what they held", "statement": "A buffer can always be taken from a BufferPool. After any history of buffers taken and put back with any content, every sequence of clear, extend, push, resize and writes of bytes on the buffer taken shows exactly what it shows on a new empty buffer and panics exactly where that does, though the memory still holds the old bytes. Taking a buffer never makes the pool larger.", "quantifier": "every history of a pool, all contents put back, and every sequence of operations on the buffer taken", "why_tests_cant": "A test would have to try what was left in the memory against every way of filling a buffer.", "anchors": ["src/buffer.rs BufferPool, Buf"]}
