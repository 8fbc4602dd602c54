# Formal model of dimpl (DTLS 1.2 / 1.3) in Lean 4

Source under study: `/repo` (algesten/dimpl at the pinned commit), read as text only.
Everything machine-checked lives in `lean/Verif`. `properties.jsonl` lists the claims,
`MANIFEST.json` maps claims to theorem names, `seeded/LOG.jsonl` records the mutation tests.

## Layout

* `Verif/Model/*.lean` - executable total functions, one per Rust function, each citing file and lines.
* `Verif/Lemmas/*.lean` - helper lemmas about the model.
* `Verif/Props/*.lean` - for each property a small specification written without the model's helpers,
  the property theorem(s), and `example`s showing that hypotheses are met by concrete non-trivial cases.

Conventions of the translation

* `&mut self` methods return the new state. `Result` becomes `Except`, `panic!`/`assert!`/out-of-bounds
  indexing/`unwrap` on `None`/capacity overflow become an explicit `panic` outcome.
* Bytes are `UInt8`, slices are `List UInt8`; integers are `Nat` with explicit `% 2^n` where Rust truncates
  (`as u16`) and explicit panic where debug Rust would overflow. `Instant`/`Duration` are `Nat`
  (milliseconds or nanoseconds, said at each definition).
* Cryptography is a parameter: a structure of functions (`seal`, `open`, `hmac`, sequence-number mask,
  signature check results). Nothing is assumed of them except what a theorem lists as hypothesis.
* Buffer pools are modelled by themselves (`Pool`, C87: reuse cannot be observed) and left out of the engines. Logging, zeroisation and constant-time comparison are not modelled.

## Trusted base

* Lean 4.33.0 kernel and the three standard axioms `propext`, `Classical.choice`, `Quot.sound`
  (each property file ends with `#print axioms`-style checks done by `vcheck`/by hand; no other axiom,
  no `sorry`, no `native_decide`, no `bv_decide`).
* The hand translation Rust -> Lean; this is the part a reader must audit, every definition cites its lines.
* Abstract crypto: AEAD, HMAC, hash, signatures, ECDHE, RNG are parameters.
* Not modelled: certificate parsing, the primitives of the crypto back ends (`crypto/aws_lc_rs`, `crypto/rust_crypto`; what surrounds
  them is in `Verify`, `Sign`, `Cipher`, `Mask` and `Kx`), the libraries behind them, logging, thread-safety of `AtomicBool` flags.

Note on `seeded/LOG.jsonl`: `theorems_failed` is read off the lines of the compiler's errors. In the first 195 entries an
error reported at the doc comment of a declaration (a timeout, mostly) was put down to the declaration before it; one such
entry was found (`Schedule.verifyData12`) and corrected, the others were not checked again. `(killed)` means that a module
ran out of memory or time, not that a theorem was seen to fail.

## What is modelled

Modelled function by function (every definition cites its lines and states its simplifications):

| model file | code |
|---|---|
| `Window`, `Seq13` | `window.rs`; `reconstruct_sequence`, thresholds of `dtls13/engine.rs` |
| `Wire`, `Bytes` | record and handshake headers of both versions (`dtls1x/message/record.rs`, `handshake.rs`), datagram splitting (`dtls1x/incoming.rs`), inner plaintext |
| `Timer` | `timer.rs` and the flight and connect timers of both engines |
| `Config` | the checks of `ConfigBuilder::build` and of the provider validation it calls |
| `Schedule` | key schedules: `dtls13/engine.rs` `derive_*`, `compute_verify_data`, `extract_srtp_keying_material`; `dtls12/context.rs` `derive_*`, `generate_verify_data`, `extract_srtp_keying_material`; `SrtpProfile::keying_material_len` |
| `Kdf`, `Aead` | `prf_hkdf.rs` (HMAC abstract), nonce and additional data of `dtls_aead.rs` |
| `Auto` | `auto.rs`: hybrid ClientHello schedule, ServerHello peek; the PSK peek of `lib.rs` |
| `Engine12`, `Session12`, `Client12`, `Server12` | `dtls12/engine.rs`, `incoming.rs`, `client.rs`, `server.rs`, the parts of `context.rs` they use |
| `Engine13`, `Session13`, `Client13`, `Server13` | `dtls13/engine.rs`, `incoming.rs`, `client.rs`, `server.rs` |
| `Msg`, `Msg12`, `Msg13` | `util.rs`; the bodies of the handshake messages and their extensions, `dtls12/message/`, `dtls13/message/`, and the functions of the clients and servers that fill them |
| `Sign` | `SigningKey` of both back ends but for the loading of keys and the curve primitive; the scheme of a DTLS 1.3 CertificateVerify |
| `Cipher` | `cipher_suite.rs` of both back ends and `ccm_cipher.rs` but for the primitives; `TmpBuf` of `buffer.rs` |
| `Mask` | `encrypt_sn` of both back ends but for the primitives |
| `Clock` | `time_tricks.rs`, `Random::new_with_time` |
| `Kx` | `kx_group.rs` of both back ends, around the curves |
| `Pool` | `buffer.rs`: `Buf`, `BufferPool` |
| `Dtls` | `lib.rs`: constructors, `set_active` and the conversions of the inner values, dispatch of the calls, version auto-sensing of client and server; the bytes of the hybrid ClientHello of `auto.rs` |

Abstract parameters of the models (`Env`, `PEnv`): AEAD, sequence-number mask, key derivation per suite, hash
of the transcript, signatures, key exchange, random numbers, jitter, and the bodies of the handshake
messages: each body is built and read by an abstract function that returns the fields the state machines
use. Theorems hold for all of them unless a hypothesis says otherwise. `Msg12.codec` and `Msg13.codec` put the
modelled parsers and serialisers of the code in their place (C57–C59).

Not modelled: accessors of `lib.rs` without effect (`Debug`, features), the contents of certificates, the back ends under `crypto/`
but for `Verify`, `Sign`, `Cipher` and `Mask`,
`buffer.rs`, `types.rs` tables other than those used, `rng.rs`, logging.

Hypotheses on the caller used by some DTLS 1.3 theorems: `Careful` - no further call after one that failed
having installed keys (or turned on the peer's encryption) ahead of the state, `Role.ahead`. Such failures are a
key derivation failing half way or a stored record failing when the peer's encryption is turned on; the
code returns a fatal error from the handshake and the session is normally dropped.

Lemma layer for DTLS 1.3: `Frame13`/`Session13` (what any step may do to the engine), `Phase13` (invariants by
phase of the handshake), `Careful13` (the same for a `Careful` caller), `Tx13`/`Run13`/`Wired13`/`Split13` (send side), `Epoch13` (receive epochs and opened record numbers),
`Rx13`/`Recv13`/`Prov13`/`Forged13` (receive side), `Later13`/`Saga13` (what happened before a state was reached),
`Fresh13` (record numbers).

## Plan per property

| id | model | proof idea |
|----|-------|-----------|
| C01, C02 | `Model/Window` (window.rs) | refinement to "set of accepted numbers": invariant bit i <-> max-i accepted; induction over histories |
| C03 | `Model/Engine12`, `Model/Engine13` receive path | case analysis: every rejecting branch returns the old state |
| C04 | `Model/Seq13.reconstruct` | integer arithmetic mod 2^bits |
| C05 | `Model/Keys13` (update_recv_keys, resolve_epoch) | invariant: retained epochs are consecutive, <=4, last is newest |
| C06, C07 | `Model/Engine13` send path | ghost trace of emitted (key generation, seq); invariant: all emitted seqs of a key < its counter |
| C08 | `Model/Engine12` send path | same; proved for implicit-nonce suites, AES-GCM explicit nonces are random: partial |
| C09 | send paths of both engines | invariant all queued datagrams <= mtu; false for oversized application data: negation + partial for everything except application data larger than the MTU |
| C10, C11 | engines | loop invariant of the fragmentation loop; defragmentation fold |
| C12 | `Model/Engine12` | negation by witness, partial for identical re-fragmentation |
| C13 | engines | invariant over queue operations |
| C14 | engines | negation by witness (packing [1,3],[2]); partial for order-preserving packings |
| C15, C16 | engines receive path | negation by witness trace; partial: data received after encryption is enabled |
| C17, C18 | engines | invariants |
| C19, C20 | engines | invariants over all operations |
| C21 | engines + local events | case analysis; PeerCert assert is a counterexample: negation + partial |
| C22 | parsers, auto, engine12 | negations by witness (auto ServerHello, 1.2 duplicate assert); panic-freedom of connected sessions by a calculus over the fields panics depend on (`Lemmas/Safe13`, `Props/Safe13`, `Props/Recv12`); of DTLS 1.3 handshakes by an invariant per state and a rank that also ends the loop (`Lemmas/Sound13`, `Fit13`, `Ready13`, `NoPanic13`, `Props/NoPanic13`); of DTLS 1.2 handshakes by what a session has at each state (`Lemmas/Calm12`, `NoPanic12`, `Props/NoPanic12`) |
| C23 | error mapping, auto | negation for the auto-sense client; positive for framing errors in both engines |
| C24 | engines | 1.3 negation by witness (plaintext KeyUpdate, plaintext handshake); 1.2 positive if provable |
| C25, C26, C27, C28 | `Model/Wire12`, `Model/Wire13` | round-trip computation lemmas |
| C29 | wire + crypto parameter | composition of the round trips |
| C30, C31 | `Model/Timer`, engines | induction over attempts, monotone deadline |
| C32 | engine13 | negation by witness (gap in handshake), positive for engine12 |
| C33, C34, C35, C36 | engine13 | invariants over flight records |
| C37, C38, C39 | client/server state machines over the engines | case analysis / invariants |
| C40, C41, C42, C43 | `Model/Client12`, `Server12`, `Client13`, `Server13` | state-machine invariants with crypto checks as inputs |
| C44 | negotiation functions | list lemmas |
| C45, C46, C47 | `Model/Auto`, `Model/Peek` | computation, induction over attempts |
| C48 | send path | negation (queue full drops), partial when the queue has room |
| C49 | `Model/Config` | case analysis |
| C50 | send path | negation by witness (length truncation), partial below 2^16 |
| C51, C52 | `Model/Kdf`, `Model/Nonce` | injectivity lemmas |
| C60 | sessions of DTLS 1.2 | what transcript messages say about the parameters of either side (`Client.Params`, `Server.Params`), kept along the walk of `Saga`; the messages can be read off the transcript, so equal transcripts mean equal parameters; verify_data without clashes is an assumption on the two sessions at hand |
| C61 | sessions of DTLS 1.2 | invariant over outputs and waiting events |
| C62 | engines of both versions | `parse_packet` on a datagram of old messages, written with the serialisers, equals `flight_resend` or nothing |
| C63 | sessions of DTLS 1.3 | as C60; `Plan` says what each state of the handshake must keep, `Story` carries it through every execution; the handshake secrets are tied to the last ServerHello, the SRTP profile to EncryptedExtensions, the exporter secret to the server's Finished |
| C64 | sessions of DTLS 1.3 | invariant over outputs and waiting events |
| C65 | `Dtls` values, both versions and roles | a measure of the handshake states that falls in every round that changes state (`Falls`); fragmentation makes progress when the MTU leaves room; every function is shown not to run out of rounds |
| C66 | sessions of both versions | a list of what waits, read off the queues; every poll removes its head (`Polled`); an event about a certificate is only queued next to a certificate (`Cited`) |
| C67 | two DTLS 1.2 sessions | a sealed record opens to its content (`Sealed`, `open_wire`); induction over the arrivals with the window's meaning (`Window.Rep`); the wanted output is a function of the payloads and the order of arrival only (`wanted`) |
| C68 | sessions of both versions | every way `TransmitQueueFull` arises in `send` and `close`; concrete executions for the two other calls |
| C69 | `Engine13`, `Session13` | as C67, with the reconstruction window (`Near`) |
| C70 | `Server12`, `Server13`, `Engine12`, `Engine13` | concrete executions; refuted |
| C71, C72 | `Model/Schedule`, sessions | RFC definitions over HMAC; `fill12`/`fill13` put the schedule into the sessions; `Exported` joins it with C73 and C41 |
| C73 | DTLS 1.2 sessions | `Saga` invariant over the key exchange fields (`keying`) and the transcript |
| C74 | sessions of both versions | from C41 and C73; refuted for DTLS 1.2 |
| C75 | `Client13` | weakest preconditions of `awaitServerHello`; two executions refute the rest |
| C76 | `Dtls`, `Client12` | invariant on the transcript over the client's states, injectivity of transcripts; one execution of both endpoints and an attacker refutes the rest |
| C77 | `Client12`, `Server12`, `Session13` | from the invariants of C40, C42 and C44; executions with a peer that announces another list refute the rest |
| C78 | `Verify` | case analysis of the verification, put into the invariants of C40, C42 in place of the abstract one |
| C79 | `Fingerprint` | a reader for the format of RFC 8122 is a left inverse |
| C80 | `Sign`, `Verify` | weakest preconditions of the functions that sign, composed with the characterisation of the verification |
| C81 | `Cipher` | one characterisation of the three ways to decrypt; the assumptions on ciphers in other theorems (`DecShort`, `SuiteSane`, `Matched`) follow from it |
| C82 | `Mask` | the mask by suite against the RFC; the engine's unmasking with a mask that may panic, equal to `Engine13.unmask` where it does not; a record for every sample |
| C83 | hello states of the four roles | the step that takes the message succeeds only with the legal value; runs with a peer that deviates |
| C84 | `Clock` | induction over the search for the beginning; arithmetic |
| C85 | `Kx` | cases; steps of the sessions; commutation assumed of the primitive; runs with mixed back ends |
| C86 | `Config`, `Server12`, `Server13` | lists; runs with the groups of built configurations |
| C87 | `Pool` | refinement to lists of bytes; invariant of the pool |
| C59 | `Model/Msg*` | inversion of every parser; the accepted bodies are the encodings listed in `Says`; counterexample for CertificateRequest of DTLS 1.3 |
| C57, C58 | `Model/Msg*` | round trip of every body against TLS layouts; parsers as functions of the entries; counterexamples for truncated lengths |
| C53–C55 | `Model/Session13`, `Model/Timer` | execution invariants on the connect timer; counterexamples |

## Disagreements between code and claims found while reading

Each line names the theorem that exhibits the failure (a concrete reachable execution, checked by the
kernel) and the claim it refutes. The claim keeps its full statement; a `_partial` theorem proves what remains.

* `Auto.server_hello_peek_can_panic` (C22, C45): a ServerHello whose `supported_versions` extension is cut
  short makes the version-sensing client index out of bounds (`src/auto.rs:433-436`).
* `App12.delivers_forged` (C16): a plaintext record of type application data with epoch 2 or more, received
  before the peer's keys exist, is queued unopened; when the ChangeCipherSpec comes in its own datagram it is
  never re-parsed and is delivered to the application after Connected (`src/dtls12/incoming.rs`,
  `src/dtls12/engine.rs` `enable_peer_encryption`).
* `Send12.nonce_repeats` (C08): explicit AES-GCM nonces are drawn at random, so nothing in the code prevents
  a repeat. `Send12.nonce_wraps`: the 64-bit nonce input repeats after 2^48 records and nothing stops there.
* `Send12.payload_exceeds_mtu` (C09): `send_application_data` never splits, so a larger payload gives a
  datagram above the MTU.
* `Recv12.duplicate_panics` (C22): the same record with epoch 1 received twice before the peer's encryption
  is on reaches the assertion at `src/dtls12/engine.rs:364`.
* `Recv12.junk_kills_handshake` (C23): a record with epoch 1 that does not open is fatal during the handshake;
  it may be sent by anyone long before the ChangeCipherSpec.
* `Recv12.full_queue_error` (C24): with a full receive queue, a plaintext stale handshake message makes a
  connected session return `ReceiveQueueFull`. `Recv12.unconfirmed_resends`: it makes a server retransmit.
* `Recv12.short_certificate_panics` (C21): `LocalEvent::into_output` asserts that the buffer holds the
  certificate instead of reporting `BufferTooSmall`.
* `Send12.payload_truncated` (C50): a payload of 65536 bytes is accepted and its length field is truncated.
* `Frag12.too_many_fragments` (C10): reassembly looks at 50 records at most, so a message sent in 51 or more
  fragments (1990 bytes at an MTU of 64) never completes.
* `Frag12.refragmented_stalls` (C12): fragments that overlap, or a longer fragment starting where a queued one
  starts, never complete the message.
* `Frag12.packing_stalls` (C14): messages 0 and 2 in one datagram, message 1 in another: message 1 is never
  found (`src/dtls12/engine.rs:304-322` orders whole datagrams by their first fragment).
* `Close12.queued_data_lost` (C48): `queued_data.drain(..)` with `?` inside drops the rest of the queue when
  the transmit queue is full on connecting, although every `send_application_data` returned Ok.
* `Shake12.no_certificate_connects` (C42): a server with `require_client_certificate` accepts an empty
  certificate list and reports Connected (`src/dtls12/server.rs:714-727`).
* `Shake12.hello_verify_resent` (C43): the server keeps its HelloVerifyRequest as a flight and retransmits it
  on a timer, so the reply is not stateless (`src/dtls12/server.rs:367-387`).
* `Send13.payload_exceeds_mtu`, `Send13.ack_exceeds_mtu` (C09): as in DTLS 1.2 for payloads; and the ACK of a
  flight lists every record of it without regard to the MTU (`src/dtls13/engine.rs:1310-1335`).
* `Send13.payload_truncated` (C50): as in DTLS 1.2.
* `App13.delivers_forged` (C15): before the peer's keys exist a record with a ciphertext header is queued
  unopened with content type application data; when the keys are switched on nothing re-opens it if it is not
  re-parsed, and it is delivered after Connected (`src/dtls13/incoming.rs`, `src/dtls13/engine.rs`
  `enable_peer_encryption`).
* `App13.close_notify_forged` (C39): an unprotected close_notify received before encryption is reported and
  cuts off the handshake (`src/dtls13/engine.rs` `handle_alert`).
* `Recv13.forged_key_update` (C24): after the handshake an unprotected KeyUpdate is queued and obeyed like a
  protected one (`classify_record` lets unprotected handshake records pass, `src/dtls13/engine.rs:2314-2378`);
  four of them make the session drop the peer's keys.
* `Recv13.forged_renegotiation` (C24): any other unprotected handshake message with an unseen number makes a
  connected session return `RenegotiationAttempt`.
* `Recv13.forged_stub_blocks` (C24): an unprotected handshake record too short for a message header is queued,
  is never marked as handled, and so blocks `purge_handled_queue_rx` for good; the queue then fills up with
  delivered records and genuine data is answered with `ReceiveQueueFull`.
* `Recv13.short_certificate_panics` (C21): as in DTLS 1.2.
* `Recv13.hello_before_timeout_panics` (C22): `server.random.unwrap()` (`src/dtls13/server.rs:774`) relies on a
  `handle_timeout` call before the first datagram; no documentation asks for one.
* `Recv13.taken_twice` (C13): a handshake message is marked as consumed and put into the transcript before its
  extensions are parsed; if that fails the datagram is dropped with Ok, the peer's next copy is consumed under
  the same number and the transcript holds both, so that the handshake cannot complete
  (`src/dtls13/engine.rs:809-841`, `src/dtls13/server.rs:440-520`).
* `Shake13.no_certificate_connects` (C42): as in DTLS 1.2, with the comment "Empty cert list is acceptable"
  (`src/dtls13/server.rs:965-973`).
* `Shake13.hello_retry_resent` (C43): the HelloRetryRequest that carries the cookie is a flight of its own and
  retransmitted on a timer (`src/dtls13/server.rs:1278-1347`).
* `Timer13.connected_client_times_out` (C53): a DTLS 1.3 client never stops its connect timer, so an
  established client returns Timeout at `handshake_timeout` after its first `handle_timeout`
  (`src/dtls13/client.rs`, no call of `flight_stop_resend_timers`; `src/dtls13/engine.rs` `handle_timeout`).
* `Timer13.server_waits_forever` (C31): a DTLS 1.3 server that asks for client certificates stops all timers
  when it accepts the client's Certificate, before CertificateVerify and Finished (`src/dtls13/server.rs`
  `await_certificate`).
* `Timer13.ack_storm` (C32): with a gap in the peer's flight every `handle_timeout` sends an ACK and the next
  reported timeout is again not in the future. `Timer13.closed_spins` (C32, C38): after `close` in that
  situation the stale ACK deadline is reported forever.
* `Timer13.unarmed_not_counted`, `Timer13.never_resends` (C55): `poll_timeout` ignores an unarmed flight
  timer, so an application that calls `handle_timeout` when told to never retransmits (both versions).
  `Timer13.first_timeout_far`: before the first `handle_timeout` a DTLS 1.3 session reports a timeout ten years
  away, a DTLS 1.2 session the present.
* `Close13.queued_data_lost` (C48): as in DTLS 1.2 (`src/dtls13/client.rs:1082-1099`).
* `Close13.queued_data_overtaken` (C48): the automatic KeyUpdate is created before the queued data is flushed;
  if that fails (transmit queue full) the session is connected with data still queued, and data sent next goes
  out first (`src/dtls13/server.rs:1168-1190`). Needs an encryption limit so low that the server's final ACK
  reaches it.
* `Ack13.epochs_drift` (C35): `await_application_data` answers the peer's KeyUpdate request without looking at
  `key_update_in_flight`; if the ACK just sent used up the keys, the automatic KeyUpdate and the answer are both sent,
  `create_key_update` forgets the first, and the send epoch moves on once while the peer's receive epoch moves on
  twice (`src/dtls13/client.rs:1076-1107`, `src/dtls13/engine.rs:1912-1946`).
* `Ack13.packed_key_update_unacked` (C56): record numbers are noted for an ACK only if the first record of a
  datagram is a handshake record (`src/dtls13/engine.rs:353-367, 418-432`), so a KeyUpdate behind application
  data in one datagram is never acknowledged and the peer's retransmissions end in `Timeout`.
* `Ack13.lost_ack_is_fatal` (C56): a handshake message below `peer_handshake_seq_no` is dropped without an ACK
  (`src/dtls13/engine.rs:395-398`); if the only ACK of a KeyUpdate is lost, the peer gives up the connection.
  Both also break C53: the error is reported by a server that is connected.
* `Limit13.limit_exceeded` (C36): `send_application_data` does not ask `needs_key_update`; an application that only
  sends encrypts more than `aead_encryption_limit` records with one key (`src/dtls13/client.rs:258-279`,
  `src/dtls13/engine.rs:318-327`).
* `Frag13.refragmented_stalls` (C11): fragments are told apart by message number and offset only
  (`src/dtls13/engine.rs:408-465`), so a longer piece starting where a shorter one starts is dropped unless it is the
  whole message; a peer that fragments anew can leave a gap that is never filled.
* `Frag13.packing_stalls` (C14): as in DTLS 1.2.
* `Frag13.too_many_fragments` (C11): more than 50 records are not looked at, more than 50 pieces are not joined
  (`src/dtls13/engine.rs:747-755`, `src/dtls13/message/handshake.rs:20, 192-194`); the pieces stay in the queue.
* `Frag13.big_message_panics` (C10, C22): the saved records of a flight are an `ArrayVec` of 12 filled with `push`
  (`src/dtls13/engine.rs:132, 901, 989`); a server with default settings and a certificate chain of 10000 bytes
  panics on every ClientHello.
* `Dtls.switched_back_fails` (C54): `Client13::into_server` hands the engine over with `is_client` still set
  (`src/lib.rs` `set_active`, `src/dtls13/client.rs`), so a DTLS 1.3 value made active and then passive again derives
  and uses the client's keys as a server and cannot complete a handshake. `Dtls.pending_switch_panics`: an
  auto-sensing value that is made active and then passive panics. `Dtls.switch_drops_data`: data queued with
  `send_application_data` before `set_active(true)` is lost.
* `Sense.stray_datagram` (C23): an auto-sensing client that waits for the first answer returns
  `UnexpectedMessage` for every datagram that is not a ServerHello or HelloVerifyRequest
  (`src/lib.rs:653-700`), so anyone can make it fail with one byte.
* `Sense.zero_timeout_panics` (C22): with `handshake_timeout` zero the first `handle_timeout` of the session made
  after sensing fails, `inner` stays empty and the next call panics on `unwrap` (`src/lib.rs:653-700`).
* `Hybrid.hybrid_exceeds_mtu` (C09): the hybrid ClientHello is not fragmented; with the accepted MTU of 64 it is
  sent in one datagram of more than 130 bytes. `Hybrid.hybrid_wraps`: for MTUs above 65535, which the
  configuration accepts, the padding overflows the length field (`src/auto.rs:187-210`).
* `Msg12.psk_identity_cut` (C57): the lengths of the PSK identity and hint are written `as u16` and nothing limits
  them (`src/dtls12/message/client_key_exchange.rs`, `src/config.rs`); of a longer identity bytes are left over and
  the peer refuses the message.
* `Msg13.client_hello_wraps` (C57): for MTUs above 65602 and two per suite the padding of the DTLS 1.3 ClientHello
  overflows the length of the extension block and no server reads it (`src/dtls13/client.rs:1273-1300`).
* `MsgOnly13.request_junk`, `MsgOnly13.request_unchecked` (C59): the DTLS 1.3 client accepts a CertificateRequest
  that is empty, lacks its extensions or is followed by arbitrary bytes (`src/dtls13/client.rs:1473-1543`), and
  answers it with its certificate.
* `Msg12.repeats_refused`, `Msg13.repeats_refused` (C58): a ClientHello that lists a supported suite more often than
  there are supported suites, or the null compression twice, is refused (`src/util.rs:8-98`); a DTLS 1.3
  ServerHello may carry five of the six supported extensions only.
* `Full.V13.flight_forgotten` (C68): `flight_resend` takes the saved records out and puts them back only if every one
  found room in the transmit queue (`src/dtls13/engine.rs:687-736`). A DTLS 1.3 endpoint that is not polled during
  a few retransmissions is answered `TransmitQueueFull` and never retransmits that flight again. DTLS 1.2 puts the
  records back in any case.
* `Full.V12.retry_skips_number` (C68): `create_handshake` takes the next message number and adds to the transcript
  before it knows that there is room (`src/dtls12/engine.rs` `create_handshake`); the state machine repeats the step on
  the next call, with another number, and the peer waits for the skipped one. DTLS 1.3 does the same.
* `Full.V13.retry_panics` (C22, C68): `send_server_hello` cuts the group and the key range off `extension_data` before
  `create_handshake` (`src/dtls13/server.rs:772-820`). If that returns `TransmitQueueFull`, the next `handle_packet` or
  `handle_timeout` reads them from what is left and panics.
* `App12.delivers_replayed`, `App13.delivers_replayed` (C18): the early records of `delivers_forged` never pass the replay
  window, and the queue only compares the first record of a datagram. One that arrives alone and again behind another is
  delivered twice.
* `Net13.lost_for_good` (C69): a DTLS 1.3 receiver that misses more than 32768 records in a row reconstructs every later
  number wrongly, opens none of them and so never moves on. A KeyUpdate would be such a record too. The 16-bit number on the
  wire is the protocol's; the code neither detects the state nor reports it.
* `Spoof.V12.hello_blocks`, `Spoof.V13.hello_blocks` (C70): a ClientHello without cookie is not forgotten. The reset after a
  HelloVerifyRequest (`src/dtls12/engine.rs:1088`) keeps the message numbers and the flight. A client with another random
  that comes next has its ClientHello taken for a repetition and is sent the first one's cookie. It never connects, in
  DTLS 1.2 or 1.3 (there the server reports a security error), so one such datagram spoils
  a server object. An application that keeps one object for each peer address gives it only datagrams with that source
  address, which is not authenticated. The executions are in `Demo`'s toy message format.
* `Master12.stale_share` (C73): if making the signature of a ServerKeyExchange fails once and the application goes on after
  the error, the second attempt starts a new key exchange (`src/dtls12/context.rs:176-191`) but sends the first one's public
  key, which `maybe_init_key_exchange` keeps (`src/dtls12/context.rs:118-136`). Client and server derive different keys.
* `Groups.group_not_configured` (C74): a DTLS 1.2 client accepts a ServerKeyExchange in a group that its configuration
  excludes and that it did not offer. `process_ecdh_params` (`src/dtls12/context.rs:194-218`) looks among the provider's
  groups and not among `config.kx_groups()`. RFC 8422, section 5.4, has the client refuse it. The execution uses the
  messages of the code.
* `Retry13.suite_changes` (C75): after a HelloRetryRequest the client does not compare the ServerHello's suite with it
  (`src/dtls13/client.rs:446-678`), which RFC 8446, section 4.1.4, requires. `Retry13.nothing_changes`: it answers a
  HelloRetryRequest that names the group it sent a share in and has no cookie, instead of aborting.
* `Downgrade.downgraded` (C76): one changed byte in the first datagram makes an auto-sensing client and an auto-sensing
  server connect with DTLS 1.2, and nobody reports anything. The server falls back (`src/lib.rs:704-735`) and asks for a
  cookie; the client becomes one of DTLS 1.2 (`src/lib.rs:667-684`); the changed ClientHello is not in the transcript, and
  the cookie covers the client's random only. The mark of RFC 8446, section 4.1.3, in the server's random is neither
  set nor looked for. `Downgrade.noticed`: without cookies the client notices.
* `Sigs.signs_anyway12` (C77): a DTLS 1.2 server whose key can sign with none of the client's algorithms signs with the
  key's own instead of refusing (`src/dtls12/server.rs:1381-1382`); RFC 5246, section 7.4.3, requires one of the client's.
  A client's CertificateVerify ignores the list of the CertificateRequest (`src/dtls12/client.rs:1336-1376`), and the
  server does not hold the signature against that list (`src/dtls12/server.rs:889-948`).
* `Sigs.server_signs_anyway13`, `Sigs.client_signs_anyway13` (C77): in DTLS 1.3 neither end looks at the peer's
  signature_algorithms.
* `Mask.chacha_refuses`, `Mask.demo_panics` (C82): with TLS_CHACHA20_POLY1305_SHA256 and RustCrypto, a datagram whose
  ciphertext begins with four bytes 255 makes a receiver panic before anything is authenticated, because
  `apply_keystream` (`src/crypto/rust_crypto/cipher_suite.rs:449-452`) panics when the library has no block left. This rests
  on how version 0.9.1 of `chacha20` counts blocks (`Mask.chacha20Left`), which is outside `/repo` and was not available to
  check. A sender panics likewise for one ciphertext in 2^32. The theorems on panics in DTLS 1.3 sessions (C22)
  take masks for total; `Mask.unmask_eq` says where that is the code.
* `Fields.session_id_ignored`, `Fields.compressions_ignored`, `Fields.extensions_ignored` (C83): a DTLS 1.3 client keeps the
  session id of a ServerHello without comparing it with its own (`src/dtls13/client.rs:581`); a DTLS 1.3 server accepts
  compression methods besides null (`src/dtls13/server.rs:434-443`), and the parsers drop extensions of unknown type, so
  clients of both versions do not notice those they did not ask for. The RFCs demand an abort in each case.
* `Clock.monotone` (C84): the comment on `to_unix_duration` (`src/time_tricks.rs:41-45`) says that it panics if time goes
  backwards; it does not.
* `Prefer.order_ignored`, `Prefer.not_preferred` (C86): `ConfigBuilder::kx_groups` (`src/config.rs:446-447`) says that order
  determines preference; the list only filters the provider's groups, whose order is used.
