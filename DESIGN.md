# Formal model of quiche (Lean 4)

Source: `/repo` (cloudflare/quiche, pinned commit). The Rust code was read as
text; nothing was executed. The Lean project is in `/verif/lean`.

## Trusted base

* Lean 4.33.0's kernel. No `sorry`, `admit`, own axioms, `native_decide`,
  `bv_decide`, `implemented_by` or `unsafe`. Every property theorem depends on at
  most `propext`, `Classical.choice` and `Quot.sound`.
* The transcription of the Rust functions into Lean definitions. Every
  definition cites the file and the lines it models and lists its
  simplifications.
* Integers are `Nat` unless the property is about machine-word behaviour. Where
  Rust would panic or wrap (subtraction underflow, index out of bounds,
  `unwrap`), the model has an explicit `panic`/error outcome or the comment says
  why it cannot happen.

Not modelled: BoringSSL/TLS, AEAD and header-protection ciphers (masks are
parameters), sockets, wall clock (times are natural-number parameters), qlog
output (but for the cause of the end, C95), logging, C FFI, memory layout (`Arc`, `Vec` capacity, buffer pools),
floating point (replaced by rationals or left out, as noted).

## Layout

* `Verif/<Area>/Model.lean` – transcription of the Rust code.
* `Verif/<Area>/Lemmas.lean` – helper lemmas and invariants.
* `Verif/Props/Cxx.lean` – the property theorems with their independent
  specification and concrete examples.

## Plan per property

| id | model | proof |
|----|-------|-------|
| C01 | `octets` cursor reads/writes over byte lists | case split on the four length classes, `omega` on base-256 digits |
| C02 | same | case split on the first byte |
| C03 | Huffman tables transcribed literally (257 codes, 256x16 decoder table) | table lemma by kernel evaluation over the whole table, induction over the string and bit buffer |
| C04, C66 | same decoder with limit | induction on the input |
| C05-C08 | `RangeSet` inline vector and B-tree variants | both variants refined to sorted interval lists, then to sets of numbers |
| C09-C13 | `RecvBuf` with its offset-keyed buffer map | invariant: buffered chunks disjoint, sorted, agreeing with the peer's byte sequence; induction over histories |
| C14,C15 | `RecvBuf::reset`/`shutdown` | case analysis, negation witness where the code violates the claim |
| C16-C19 | `SendBuf` chunk queue, ack range set | invariant relating queue to the application byte sequence |
| C58-C60 | same model: FIN acknowledgement, final size on abandonment, panic freedom | witness histories and history invariant |
| C20 | `FlowControl` | invariant by induction over operations |
| C21 | connection-level send accounting over a map of `SendBuf`s | invariant; counterexample for capacity factors above one |
| C22,C23,C24-C28 | `Conn/Model.lean`: the stream part of `Connection` and `StreamMap` as a step function over operations (frames, API calls, packets built, acks, losses) with events | one invariant (`Conn/Inv.lean`) against an independent log of the history (`Conn/Monitor.lean`), preserved by every operation |
| C22,C23 | connection-level receive accounting over a map of `RecvBuf`s | sum invariant |
| C24-C26 | `StreamMap` creation/collection | invariant by induction |
| C27,C28 | red-black tree insertion abstracted to "insert before first greater" using the real `cmp` | induction on the queue |
| C61-C65 | same model: work conservation (`Conn/Queued.lean`), FIN, panic freedom, forgetting streams, writability | queue-membership invariant, the connection invariant, witness histories |
| C67 | same model: limits of single streams (`Conn/StreamLim.lean`) | observer's limits refine the limits in force, by induction |
| C29-C32, C68 | `Frame` codec (`Frame/Model.lean`) over a reader/writer monad on byte cursors (`Codec/Io.lean`) | wire format as a separate grammar of fields (`Codec/Fields.lean`, `Frame/Spec.lean`); the decoder is shown sound and complete for it, the encoder to emit it; induction over ACK blocks |
| C33, C36, C69-C71 | `Packet/Header.lean`: header codec, header protection, whole packets; ciphers are parameters | header wire format as a separate grammar (`Packet/Spec.lean`), reader sound and complete, writer emits it; end-to-end composition (`Packet/EndToEnd.lean`) |
| C34, C35 | `Packet/Num.lean` | modular arithmetic; bit-window invariant against the set of numbers seen |
| C72, C74, C75 | `Packet/PnManager.lean`: packet numbers, skipped numbers, ACK checks, nonce | invariant over all runs of sends and acknowledgements |
| C73 | `Packet/Client.lean`: Version Negotiation and Retry in `recv_single` | case analysis, induction over arrivals, witness for late Retry |
| C37 | `Tp/Model.lean`: `TransportParams` codec and `Config` setters | format as entries apart from the code (`Tp/Spec.lean`), decoder sound and complete for it, encoder emits it |
| C76 | same: IDs kept in `recv_single`, checks in `parse_peer_transport_params` | induction over packets received, witnesses for what is not checked |
| C38 | `Cid/Model.lean`: all of `cid.rs`; `Cid/Run.lean`: the operations of a connection on it with a ledger of what was issued | invariant over all histories (`Cid/Inv.lean`) |
| C39 | same | witnesses against it, invariant under a condition |
| C40 | same | exact outcome of each kind of frame, witnesses for what is forgotten |
| C77 | same, with the loops of `send_single` | witness kept for ever by an invariant; invariant for calm histories |
| C78 | two copies of the same and a network that may deliver any frame sent, any number of times | invariant of the pair; witnesses |
| C79 | same as C38 | exact outcome of RETIRE_CONNECTION_ID, ledger of what the application is told |
| C41 | `Path/Model.lean`: all of `path.rs`; `Path/Conn.lean`: what `recv`, `send`, `on_timeout`, `probe_path`, `migrate` and `retire_dcid` do to paths and connection IDs (the latter by the model of C38); packets are lists of frames, ciphers and recovery are left out | relation between a path before and after each operation (`Path/Rel.lean`, `Path/Evo.lean`), induction over histories |
| C42 | same | ledger of bytes per path, invariant; witnesses for padding and kept 0-RTT packets |
| C80 | same | table invariant over all histories (`Path/Table.lean`, `Path/Links.lean`) |
| C81-C84 | same | witness histories and what follows from such states for all continuations; exact reports of failures |
| C43 | `Small/Pmtud.lean` | invariant over all fates of probes; halving measure for the binary search |
| C44 | `Small/Dgram.lean`: `DatagramQueue` and its use in `send_single`, `dgram_send`, `dgram_recv`, frame reception | refinement to a plain list, induction over histories |
| C45 | `Small/Minmax.lean` | invariant over sample sequences |
| C46 | `Rec/Model.lean` (`LegacyRecovery`, `RecoveryEpoch`, `RttStats`, `BytesInFlight`) with any congestion controller | ledger kept from outside equals the counters; witness for padded packets |
| C47 | same | packets decided at most once (`Rec/Fate.lean`); witness for packet 0 on a path change |
| C48 | same | exact characterisation of the loss time found; witness |
| C89 | `Packet/PnManager.lean`, `Rec/Model.lean` | witness and general evasion; exact failure condition |
| C85 | same | invariant "packets in flight are timed"; witness of a cleared timer |
| C86 | same | least of the due times; induction on timeouts |
| C88 | `Rec/Model.lean` | the loop stops at the first packet not lost; order of numbers and times as invariant |
| C87 | `Rtt.update` | interval invariant over samples; link to C45 |
| C49 | `Life/Model.lean`: the life of a connection (idle and draining timers, errors, `close`, the closing part of `send_single`, `write_pkt_type`, `on_timeout`); TLS, packet processing, paths and loss detection are inputs that may do anything | case analysis; deadline given by a log kept from outside |
| C90-C92 | same | relation between earlier and later states, induction over calls |
| C93 | same | exact conditions for the next packet; states from which no continuation ever sends the frame (invariants); witness |
| C96 | same | case analysis, induction over a datagram |
| C94 | same | least of a list |
| C95 | same | invariant: what is logged is written before the flag is set; witnesses |
| C50 | `H3/Frame.lean`: frames of HTTP/3; `H3/Format.lean`: their format (RFC 9114) apart from the code | writer lemmas, then the reader is complete for the format |
| C98 | same | reader sound and complete for the format; witnesses for trailing bytes and wrong codes |
| C99 | `H3/Config.lean`: the configuration API and the SETTINGS frame made from it | induction on the API calls, then C50; witnesses |
| C51-C53 | `Qpack/Model.lean`: the encoder and decoder; `Qpack/Table.lean`: the two static tables (generated from the source, literally); `Qpack/Spec.lean`: the format of RFC 9204 apart from the code | decoder sound and complete for the format, encoder writes the format; witness for over-long integers |
| C97 | same, and `Qpack/Rfc.lean`: the static table of the RFC, written out apart from the code | the same; tables compared by evaluation in the kernel; witness for the insert count |
| C54 | `H3/Stream.lean`, `H3/Conn.lean`: receiving of HTTP/3 (`poll`, `recv_body`, stream parsing); `H3/Run.lean`: executions in which bytes, ends and resets arrive in any pieces; `H3/Message.lean`: frames and messages as sequences of bytes, apart from the code | invariant relating each stream's state to the bytes used and the content given (`Match`, `Live`, `Inv`), kept by every loop iteration and step |
| C100-C102, C112 | same | from the invariant; frames are determined by bytes (`Unique`); witnesses |
| C103, C104, C107, C110, C111 | same | second invariant on the roles of streams and the causes of errors (`Track`, `Crit`, `Trace`); witnesses |
| C105, C106, C108 | same | relations between states before and after (`Mild`, `Once`, `Quiet`); witnesses |
| C109, C113, C115 | `H3/Send.lean`: sending of HTTP/3 (`send_request`, `send_response`, `send_additional_headers`, `send_body`, `send_goaway`, grease frames) over streams whose capacity changes at will, that may be stopped, shut down or collected at any time | each call writes whole frames or nothing (`Sent`), invariant relating the bytes of each stream to the log of accepted content (`SendInv`, `SendStep`); witness for C113 |
| C114 | `H3/Send.lean` and `H3/Conn.lean` | C109 for the sender, C100/C101 for the receiver; frames of a prefix are a prefix of the frames |
| C116, C117, C118 | `Ack/Model.lean`: the set of numbers to acknowledge of a packet number space (`recv_pkt_need_ack`, `largest_rx_pkt_time`, `ack_elicited`), with arrival of packets, acknowledgement and loss of ACK frames, and creation of ACK frames | invariants over executions: numbers to acknowledge were received; the time kept is that of the largest of them (C118); C117 by following every number until an ACK frame with it is acknowledged. Not modelled: decryption, errors of frames (a packet whose frames fail closes the connection), dropping of the whole space. Sending is given by four conditions (asked for, allowed, congestion window, room) |
| C119, C120, C121 | `Packet/KeyUpdate.lean`: choice of keys by phase and packet number, key update, mark and timer of the previous keys; ideal packet protection (a packet opens with exactly the generation of keys it was sealed with; forged ones with none) | invariants: open and seal generations agree, the phase is their parity, the previous keys are one behind and the number kept is that of the first packet accepted of the present generation; for conforming peers a mark is set once anything was sent with the present keys. Not modelled: AEAD itself, derivation of keys (ideal), AEAD limits (the library never starts an update) |
| C122-C126 | `Cong/Model.lean`: Reno, CUBIC, HyStart++ and PRR as controllers of the recovery of `Rec/Model.lean`, change of the datagram size, `cwnd_available`; the floating point values of CUBIC are arbitrary (`Curve`) | what each call of recovery may do to the controller (`Cong/Moves.lean`), invariants over the trace of windows before and after each call; refinement of a small specification by Reno (`Halves`, `Grow`); witnesses for CUBIC |
| C127 | model `Conn` (`Verif/Conn/Model.lean`), ledger `Debt` of what the peer is owed (`Conn/Debt.lean`); invariant `Ctl` (the connection remembers the ledger), preserved by every operation; operations that leave control frames alone are `Calm` (`Conn/Calm.lean`) |
| C128 | same invariant: every frame that gives a final size is for a stream whose sending side is settled at it; STOP_SENDING codes agree; witness for RESET_STREAM codes |
| C129 | `Small/Notices.lean`: two small state machines, statements over whole histories |
| C130 | `GRec/*`: loss recovery of `gcongestion` for an arbitrary controller; the bytes in flight are compared with a ledger kept from the calls and their reports |
| C131 | `GRec/Trace`: permutation of packets sent into fates, for whole histories; queues of frames by induction |
| C132 | log of all calls of the pacer; every call of the recovery adds known entries (`step_tells`), then induction |
| C133 | thresholds by induction; loss detection through `lose_spec`; completeness needs the order of recorded times |
| C134 | as C48, C85, C86, for `GRec` |
| C135 | `Bbr/Bandwidth.lean`: exact quotients against the checked and saturating arithmetic; proofs through a generic factor so that the kernel never unfolds a product with a large literal |
| C136 | `Bbr/Pacer.lean`: the pacer over arbitrary answers of the controller; invariant on tokens, sum of transfer times as lower bound of the release time |
| C137 | `Bbr/Filter.lean`: invariant that each estimate is the best since its own time, over a list of operations |
| C138 | `Bbr/Sampler.lean`, `Bbr/SamplerInv.lean`: the sampler with its sparse queue refines a ledger of packets (`Ledger`), ghost `failed` for panics |
| C139 | over the same runs: each sample is traced to a packet and two points of the curves of the ledger |
| C140 | over the same runs: starts of epochs are recorded (`marks`) and compared with the tracker |
| C141 | BBR's network model (`Bbr/Net.lean`) in runs of the whole controller; the phases leave the estimates alone (`Calm`, `Bbr/NetInv.lean`); the controller's sampler is shown to be one of C138 (`ledger`), so its samples are those of C139 |
| C142 | the controller (`Bbr/Modes.lean`): modes, phases, pacing rate, window; invariant over runs (`Bbr/ModesInv.lean`, `Bbr/RunInv.lean`); the order of modes and the reasons to leave Startup are specified separately (`Next`, `reason`); floats are a parameter |
| C143 | same runs; window as a function of the model after the event (`cwnd_after`) |
| C144 | same runs; the end of ProbeRTT, and a sender that never gets there |
| C145 | same runs; what each phase does to the filter of bandwidth and to the upper bound, by case over the calls of an event (Bbr/CycleInv, Bbr/HiInv); events in order of time, as clocks are, since a clock set back makes the first round of PROBE_DOWN end twice |
| C146 | same runs; what the start of an event and the calls of the modes do to the lower bounds (Bbr/LoInv, Bbr/MildInv); the other three treatments of losses are modelled, but these claims are for the default |
| C196 | `Apps/Files.lean`: `build_h3_response`, `autoindex`, the file of an HTTP/0.9 request | Cutting at slashes distributes over joining; induction over the names pushed and over header fields |
| C195 | `Apps/Serve.lean`: the sending part of the loop of `quiche-server`, `send_to` | Splitting the buffer inverts joining the packets collected; induction over packets and over connections |
| C194 | `Dancer/Trackers.lean`: `StreamMaxTracker`, `StreamBufferTracker`, the events of `Datastore` that feed them, the report on MAX_DATA | Invariant of a tracker against the list of values so far (highest value per stream, sum over any list that names the streams once); induction over logs |
| C193 | `Rand/Model.lean`: `rand_u64_uniform`, and its two uses `arm_skip_counter` and `grease_value` | The words of a number form an interval of fixed length; an involution on words, carried through the loop by induction |
| C192 | `Ping/Model.lean`: `send_ack_eliciting`, `send_ack_eliciting_on_path`, the parts of `write_pkt_type` and `send_single` about PING, `should_elicit_ack`, `ping_sent` | Case analysis of one packet; induction over runs for the request and for rows of packets |
| C191 | `Path/Serve.lean`: `paths_iter`, beside `get_send_path_id` and `send_on_path` of `Path/Conn.lean` | Consistency of the table (C80) for the addresses; a state without progress, kept by `send` and by timeouts, for the refuted part |
| C190 | `Conn/Ends.lean`: `stream_finished`, `stream_closed` over the streams of `Conn/Model.lean` | A relation between states that every operation satisfies (ends are kept, and not made up), composed over the run |
| C189 | `Tq/Ancillary.lean`: `poll_recv_and_rx_time`, `resolve_dst_addr`, `PktInfo`; how Linux fills the space for control messages | Bytes of numbers in both orders; induction on the messages; sums of sizes under permutation |
| C188 | `Rec/Stats.lean`: the counters of `stats` and `path_stats` over the recoveries of the paths (`Rec/Model.lean`); Reno and CUBIC | Measures of the sent packets (open, lost and not acknowledged, bytes in flight) through acknowledgement, loss and removal; sums over spaces and paths; induction on the run |
| C187 | `Tp/Reserved.lean`: `is_reserved`, `is_reserved_version`, the version check of `Config`; `keep` of `Tp/Spec.lean` | Arithmetic; the mask bit by bit; induction on the list of parameters |
| C186 | `Tq/PostAccept.lean`: the post-accept timeout of the server hooks, with its delay queue and the two `select!`s before it | Invariant: the timer is off, or in the hooks and the queue with the time set after the start; runs of any events |
| C185 | `Cong/Model.lean`: `PRR` as the controller of CUBIC uses it | Sums over a whole recovery against the least number not below the share (`Share`), by induction at the end of the sequence; two witnesses on runs of the full recovery model |
| C184 | `H3/Prio.lean`: `Priority::try_from` over any parser of structured fields (the `sfv` crate is not in the repository), the value written by `send_priority_update_for_request`, the slot of the last update, the urgency given to the transport | Reading against RFC 9218 on the last member of each key (`meaning_partial`, `refused`); round trip (`round_trip`); updates by induction over all sequences (`last_update`); order (`scheduled`). Two deviations, see below |
| C183 | `Tq/Batch.lean`: `recvmmsg`, `sendmmsg` with chunks of 16, their `poll_` wrappers over the runtime's readiness, and the portable loops of the traits. The kernel's calls follow their manual pages; a socket is a queue of datagrams and pending errors, or a list of outcomes of attempts | Closed form of both loops for every length by induction over chunks (`received`, `sent`); the portable loops equal them (`send_many`, `recv_many_partial`); the reader is woken, as an invariant over arrivals and calls (`woken_partial`). Four deviations, see below |
| C182 | `Ffi/Model.lean`: the C interface over any result of the library: both `to_c`, the casts to `ssize_t`, `int64_t`, `int`, `quiche_conn_stream_recv`/`_send`, `quiche_header_info`, timeouts, addresses as bytes of memory, the callback loops, `quiche_conn_path_stats`, varints. 64-bit little-endian Linux; a panic ends the process | Codes against the header file transcribed separately (`codes`, `h3codes_partial`, `h3distinct`); `Reads` is how a C program reads a value (`reads_unique`: in one way); `address` is a round trip through memory with any prior contents; `callbacks` by induction. Refuted: `max_rtt_false`, `iterator_false`, `millis_false`, `nanos_false`, `header_info_false`, `h3codes_false`, `capacity_false`, `settings_false` |
| C181 | `Packet/Keys.lean`: the derivations of `crypto/mod.rs` over any HKDF (`derive_initial_key_material`, `hkdf_expand_label`, `from_secret`, `derive_next_packet_key`), and the sealing contexts with the one sequence of packet numbers | `initial_keys`, `secret` are equivalences with RFC 9001 written out separately (`hkdfLabel` of RFC 8446, `label_inj`: distinct inputs); `mirror`, `update`, `update_same` by induction over the updates; `sealed_partial` is an invariant over all keys (`Ready`). Not modelled: HKDF and the ciphers; the rule that AES-GCM contexts accept growing nonces only is BoringSSL's (`EVP_aead_aes_128_gcm_tls13`), stated in `Ctx.encrypt` and trusted; the IV counts as the number in its last eight bytes (nonces: C72). |
| C180 | `Conn/Tls.lean`: `set_application_protos`, `set_application_protos_wire_format`, `set_alpn`, `select_alpn`, and the callbacks of the TLS library (`set_read_secret`, `set_write_secret`, `add_handshake_data`, `send_alert`, `keylog`) with `map_result_ssl`, `set_transport_error` and the error kept by `close` | `choice` by induction over the client's list, `picks`/`nothing` for bytes that are no list; `keys` is an invariant over all callbacks, `latest` and `bytes` say which key and which bytes exactly; `error`/`stays` give the error of every call. Not modelled: the TLS library itself (its calls and results are inputs, whether it takes a list and whether keys can be derived are parameters), key update (C119 to C121), `new_session` (C166). |
| C179 | `Conn/Setup.lean` (`do_handshake`, the setters for callbacks, `process_peer_transport_params`; the TLS library as a script for each call: settings made by callbacks, the moment its parameters are written, result, parameters of the peer) with the parameters and their encoding of C37 | one call by cases; invariants over sequences: written = local = enforced; history of the peer's parameters; the spec of a setting is the last one in the script | what callbacks are given besides; sessions (C166); `tx_cap`, stream limits and connection IDs of the peer's parameters; MAX_STREAMS sent later |
| C178 | `H3/Uni.lean` (`with_transport` with the streams it opens, `send_goaway`, `send_priority_update_for_request`; the transport as the bytes accepted on each stream, with a credit for the connection, for each stream and for new streams) | an invariant over calls and changes of credit: the control stream is type, beginning of SETTINGS, whole frames of the accepted calls (the spec lists frames by type and payload); the streams used are exactly those below the next number; the reasons for failure by cases | streams opened by the application before the HTTP/3 layer; a control stream that was reset or collected; qlog |
| C177 | `H3i/Parser.lean` (the parser, one round of its loop and the three rounds of a call; the stream as `stream_recv` shows it), `H3i/Inv.lean`, `H3i/Step.lean` | an invariant: bytes received = frames reported, spelled ++ bytes held ++ bytes to be read; unique decodability of frames for the independence of the cuts; a measure for the loop of the caller; negations with witnesses |
| C176 | `Tq/Worker.lean`, `Tq/WorkerSteps.lean`: the worker's loop in small steps (receive, read, send, set the timer, sleep, wake), the stages handshake, running and close; the connection and the application are any type with answer functions; datagrams may arrive and time may pass between any two steps | a relation of 27 kinds of steps that covers the functions (`go_tr`, `wake_tr`), one invariant per claim over it; the order of callbacks by a small automaton over the log; negations with witnesses |
| C175 | `Stream/Crypto.lean`: CRYPTO frames over the receive buffer of C10-C15, one per level; the loop handing pieces of 512 bytes to TLS, given by its answers; dropping levels | invariant relating the buffer to the events of each level (built on `write_spec`/`emit_spec`), corollaries over the list of frames; provenance of pieces by induction over the loops of `write`; negations with witnesses, one for a family of frames of any length |
| C174 | `Tq/Requests.lean`: the command channel and the queue of a client, the choice of streams in `send_request`, the map of pending requests; the count of requests of a server | permutation of the places of requests; ids as an invariant; draining the channel by induction; negations with witnesses, two of them over all continuations |
| C173 | `Tq/Connector.lean`: the connector of a client with its `DelayQueue`, over any connection with the calls it makes | one timer as an invariant; a log that the connection keeps of its datagrams |
| C172 | `Small/Coalesce.lean`: the loop of `recv` over the packets of a datagram, duplicates, missing keys, the queue of 0-RTT packets and its replay; what TLS does comes with the packets | an invariant of runs; the replay of the queue by induction, against a filter of the packets that open and are new |
| C171 | `Small/Jump.lean`: both detectors of jumps; thresholds and the most likely state are parameters | the row of high samples as a function of the log; the samples that agree as an invariant; a flag that only a normal state clears |
| C170 | `Small/InFlight.lean`: the clock of bytes in flight | sum over the log by an invariant of the open interval |
| C169 | `Small/Qlog.lean`: the streamer, a writer that may fail in any call after any number of bytes, and the reader; JSON is a parameter | the file as a list of chunks between separators, each of which reads as its event or as nothing; witnesses for writers that recover |
| C168 | `Cong/Model.lean` (HyStart++): sending, acknowledgements and losses in any order, beside a log of all measurements | simulation of the log by the state (minima, counts); witnesses against the parts that fail |
| C167 | `Small/Resume.lean`: which token is compared with a datagram that cannot be processed | invariant over all histories; witnesses against the claim in general |
| C166 | `Small/Resume.lean`: stored sessions with parameters, their use and replacement; TLS is a parameter (whether it takes a session, what the peer sent) | exact grammar of what is accepted; simulation of a resumed connection by one without a session |
| C165 | `Small/DgramConn.lean`: DATAGRAM and STREAM frames of successive packets; one direction from application to application | case analysis of two successive packets; invariant (sublist, counts) over all networks |
| C164 | `Tq/Killswitch.lean`: task-killswitch, with all interleavings | invariant per task under the lock of its shard |
| C163 | `Octets/Model.lean`, `Octets/Api.lean`: all calls of the buffer types but Huffman coding | refinement of a tape (bytes left and right of the cursor) for all sequences of calls |
| C162 | `Tq/Bandwidth.lean`: reporter, estimator and shared gauge; the filter is that of C137 | invariants: gauge equals sum modulo 2^64, rounds kept are the last ten, filter refines C137's; negations for all steady rates and for idle connections |
| C161 | `Small/PmtudPaths.lean`: discovery of C43 on each of several paths; what else decides whether a probe is possible is an input | refinement of each path to a run of C43; induction with the sizes delivered so far; negation with a witness, for all continuations |
| C160 | `Small/Assembly.lean`: assembly of packets and datagrams by lengths; the wanted frames, the window and the MTU are inputs | bytes used plus bytes left are conserved by each step; induction over the turns of the loop; negations with witnesses |
| C159 | `Tq/Driver.lean`, inbound direction: the same state machine | invariant over all steps and answers; negations with witnesses |
| C158 | `Tq/Driver.lean`: the driver's context of one stream, the two channels and the loops of `process_writable_stream` and `process_h3_data`, one iteration a step, interleaved with the application; the answers of `quiche` are part of the step. After the end of the stream, RESET_STREAM or STOP_SENDING `quiche` is taken to report no data (a guard of the step) | invariant over all steps: what the frames stand for (a separate denotation) is what is on the wire followed by what the driver holds; progress by induction over the channel |
| C157 | `Rec/Rate.lean`: the rate estimator of the legacy recovery, function by function, driven by packets sent, lost and acknowledged in any order; a record of the acknowledgements for the specification; quotients exact instead of `f64` | invariant linking the counters of every packet to the record; exact value from it; negations with witnesses in realistic times |
| C156 | `Tq/Flows.lean`: the prefix of HTTP/3 datagrams over the model of `octets`; the header scan; the flow map, the channels and the streams as a state machine; the event channel to the application is always open | round trip from the varint theorems (C01/C02); invariant over all events with a record of the datagrams; negations with witnesses |
| C155 | `Tq/DgramBuf.lean`: vector and position with `usize` sums that panic or wrap; `ConsumeBuffer` with capacity and gauge, growth chosen by the allocator | refinement of a two-field specification (`View`) for all sequences of calls; invariant for the gauge; negations with witnesses |
| C154 | `Tq/Pool.lean`: each shard as a set of threads whose program counters stand between the atomic steps of `get` and `drop`; `shrink_to` is taken to give exactly the smaller capacity; atomics are sequentially consistent | invariant over all interleavings that ties the counter and the gauges to the queue and to the program counters; negation with a witness |
| C153 | `Tq/Gather.lean`: the gather loop of the worker over any state machine that answers `send_on_path` (assumed: packets are not empty, fit the buffer and go to the path asked for); the pacer's reasons to wait are not modelled | induction over the rounds with a record of the packets, proved not to change the run; cutting the buffer undoes joining; negations with witnesses |
| C152 | `Tq/Map.lean` (map from IDs to connections, keys), `Tq/Router.lean` (router with its command queue, any number of connections as their sets of IDs; generated IDs are new) | invariant over all interleavings relating the map, the queue and the connections; the key of an ID is proved injective and the fast path for short headers equal to the parser; negations with witnesses |
| C151 | `Tq/Token.lean`: address tokens and the acceptor of tokio-quiche; the keyed hash is any function with 32-byte values, a token with a right tag is one that was sent (assumption `Unforged`) | decision logic, over any history of packets; negation with a witness (two address families) |
| C150 | the two endpoints of C149 | for a reachable state a continuation is constructed: everything declared lost, sent again, delivered, read, window update sent and delivered; by induction over the data to be transferred |
| C149 | `Stream/Pair*.lean`: the sending and the receiving half of a stream (those of C09–C18) joined by a network that keeps every frame; a frame may be delivered any number of times, declared lost whether it was or not, and acknowledged once delivered. Connection-level flow control and the removal of completed streams are left out | invariant over all steps that relates the state of the two halves |
| C148 | same as C81 | witness histories and what follows from such states; invariant (`Path/OwnS.lean`: a path's own ID is stored and linked to it) for histories with one address per ID and no more addresses than paths |
| C147 | same runs; a history of the ends of rounds is the specification, and the counter and the baseline of the code are shown to be those of the history |

## Deviations found in the code

Each is proved as a theorem about a concrete history (a witness), next to a `_partial`
theorem for all remaining histories where the claim itself fails.

* **C07** capacities 0-3 of a range set can panic; the documented order (remove after
  insertion) is not what is done.
* **C14** a RESET_STREAM arriving after the final size is known drops buffered data
  but queues no marker: the stream is not readable and the error is never reported.
* **C15** an empty STREAM frame without FIN at an offset beyond the highest received one
  is charged to the connection (`max_off_delta`) but does not move `RecvBuf::len`, so it
  is charged again and never given back.
* **C55** FIN carried by a duplicate frame that lies below the read position records the
  final size but queues no marker: the reader is never told.
* **C56** `RecvBuf::reset` moves the read offset before the flow-control check in `write`
  fails; a later `stream_shutdown(Read)` computes `len - off` with `len < off`.
* **C21** `update_tx_cap` scales the send capacity by the configured factor without
  capping it at the peer's connection limit, so a factor above one accepts (and sends)
  more than the peer granted.
* **C23** the empty frames of C15 leak connection credit for good.
* **C58** a stream finished by an empty write completes (and is collected) once its data
  is acknowledged, even if the FIN was never sent or the frame with it was lost.
* **C59** after `stream_shutdown(Write)` the stream stays in the flush queue and
  `send_single` skips only streams stopped by the peer, so an empty STREAM frame with FIN
  is sent after RESET_STREAM.
* **C61** `send_single` takes a stream out of the flush queue when the header of its frame
  does not fit the room left in the packet, and nothing puts it back while it stays
  flushable: its data is never sent.
* **C62** the consequence of C58 for a whole connection: the application finishes a stream
  with an empty write while the lost first half waits to be sent again; FIN is never sent
  and the stream is collected.
* **C63** `max_tx_data - tx_data` underflows when handshake parameters reduce the limit
  assumed for early data, and when the send capacity factor is above one (C21).
* **C64** after `stream_shutdown(Read)` a unidirectional stream of the peer is never
  collected, since only `stream_recv` collects it and that returns `Done` before doing so;
  its stream credit is lost.
* **C65** `Stream::is_writable` uses `<` where the documentation says "reaches": with a
  capacity exactly equal to the watermark the stream is not reported.
* **C29** the length of CRYPTO, STREAM and DATAGRAM data is always written as a two-byte
  varint without checking the value: data of 2^14 to 2^15-1 bytes is written without an
  error and read back 2^14 bytes shorter. It needs `max_send_udp_payload_size` and the
  peer's `max_udp_payload_size` above 16 KiB. The claim is stated for shorter data.
* **C31** transport CONNECTION_CLOSE is refused in 0-RTT packets, which RFC 9000 would
  permit; the claim follows the code.
* **C35** `PktNumWindow::insert` shifts its 128-bit window by the distance truncated to
  `u32`; taken alone the filter forgets numbers after a jump of 2^32 or more
  (`filter_alone`). On a connection decoded numbers cannot jump that far, so the claim
  holds there.
* **C70** the length field of long header packets is a two-byte varint without a check;
  packets of 2^14 bytes or more would carry a wrong length. The claim is stated for
  shorter packets.
* **C73** `recv_single` checks only `did_retry` before acting on a Retry packet. A client
  that has processed packets of the server still acts on one, and on one with an empty
  token or an unchanged connection ID; RFC 9000, 17.2.5.2, has all these discarded. As the
  key of the integrity tag is public, an on-path attacker can restart a handshake.
* **C75** the check of the largest acknowledged number is skipped when nothing was sent in
  the packet number space (`largest_tx_pkt_num` is `None`), so such ACK frames are accepted.
* **C43** `revalidate_pmtu` keeps the smallest failed size, so a revalidation only searches
  downward from the earlier result (`revalidates`), although the comment says that discovery
  restarts afresh; until it is done the size in use is 1200.
* **C44** with a receive queue of length 0, a DATAGRAM frame makes the processing of its
  packet stop with `Done` (the rest of the packet is not processed); `dgram_recv` drops a
  datagram that does not fit the buffer given.
* **C45** the filter is an approximation: a better sample may still be in the window while
  the estimate is another one (example in `Props/C45.lean`).
* **C37** `encode` leaves out zero values also of the parameters whose default is not zero:
  with `set_ack_delay_exponent(0)` or `set_max_ack_delay(0)` the peer assumes 3 and 25 ms
  (and so scales ACK delays wrongly). Bytes after an integer value are ignored. The setters
  accept values every peer refuses (`configured_refused`). The buffer from which the
  parameters are handed to the TLS library has 128 bytes; a server after a Retry with 20-byte
  connection IDs, a stateless reset token and ordinary limits needs 134, so that accepting
  its connections fails (`buffer_too_small`).
* **C76** a client does not refuse `retry_source_connection_id` without a Retry (RFC 9000,
  7.3). Empty parameters are skipped without the check that `initial_source_connection_id`
  is present (whether the TLS library lets a peer send them is outside the model).
* **C39** `new_scid` with `retire_if_needed` raises `retire_prior_to` before it knows whether it
  succeeds, and NEW_CONNECTION_ID frames take the value of the moment they are packed. With
  a limit of 3, four calls in a row make the first frame leave with number 1 and
  `retire_prior_to` 2, which a quiche peer answers by closing the connection
  (`C39.malformed_frame`); likewise for retransmissions and after refused calls.
* **C40** the endpoint forgets retired numbers: a repeated frame brings back a connection ID the
  application retired (`resurrected`), or makes the endpoint announce a retirement again
  (`announced_again`); with the queue full it is an error (`repeat_error`). A repeat asking for
  more retirements is ignored (`retirement_ignored`).
* **C77** a number retired by the peer stays in the queue of numbers to advertise, or enters it
  again when its packet is declared lost. From then on `send` fails with `InvalidState` for
  ever (`stuck_for_ever`). It takes one spurious loss (`spurious_loss_blocks`), and a peer can
  do it at will (`guess_blocks`).
* **C78** two quiche endpoints may close the connection over each other's correct frames: a
  delayed repeat after `retire_dcid` (`delayed_repeat_closes`), a repeated
  RETIRE_CONNECTION_ID when one source connection ID is left, which is `OutOfIdentifiers`
  (`repeated_retire_closes`), a retirement after refused calls of `new_scid`
  (`refused_calls_close`), and C39 (`malformed_closes`).
* **C42** padding of a datagram with an Initial packet is not charged to the amplification
  budget: 1200 bytes received allow any number of padded datagrams until the unpadded
  packets use up 3600 bytes. And 0-RTT packets that wait for their key pass through `recv`
  twice and are credited twice.
* **C81** `on_peer_migrated` copies the destination connection ID of the old path to the new
  one without linking it. When it is retired, only the path it is linked to gets another
  one; the active path keeps a number that is no longer stored and `send` fails with
  `InvalidState` from then on. Also `retire_dcid` removes the ID before it finds that too many
  wait to be retired; the call fails with `IdLimit` and the path keeps the number
  (`client_false`). The positive theorems are proved with the invariants `Own` and `Stored`
  of `Path/Own.lean`, over all operations by `Path/Walk.lean`.
* **C82** `retire_dcid` on the active path is granted when another path is usable, but
  nothing makes that path active; the next packet from the peer closes the connection with
  `InvalidState`, or after a timeout there are two active paths. With `disable_dcid_reuse`
  a change of the address of the client has the same effect when there is no spare ID. So
  have the peer's retirements when a path that is not active takes the new ID first
  (`peer_false`), and packets on, or a migration to, a path whose validation failed: it is
  marked active but is not usable, since nothing takes it out of the failed state
  (`failed_false`, `migrate_false`). `one_partial` (invariant `One`, `Path/One.lean`) excludes
  exactly these.
* **C83** `failure_notified` and `probing_lost` are never reset: the second failure of a path
  is not reported, and comes after one lost probe instead of three.
* **C84** a 1-RTT packet to a connection ID no longer stored makes `recv` fail with
  `InvalidState`, which closes the connection; a packet delayed past the retirement of its
  connection ID is enough.
* **C41** (remarks) the largest challenge answered is kept over a failure, so that a small
  response can validate a path again later; a PATH_RESPONSE that does not fit the packet is
  taken from its queue and lost; a Handshake packet verifies the address of the active path,
  whichever path it arrived on.
* **C46** a packet with padding but nothing ack-eliciting (an ACK on a path not yet
  validated, or coalesced with an Initial) is counted as in flight with size 0. When a peer
  acknowledges a skipped packet number, the bytes of the ranges already applied stay in
  flight (the connection closes).
* **C47** a path change runs loss detection with the largest acknowledged number taken as 0;
  packet 0 can then be declared lost by time although nothing was acknowledged.
* **C48**, **C85** `new_time < time` on `Option<Instant>`: `None` is the least value. In
  `loss_time_and_space` a space without loss time erases the ones before it, so that losses
  in the Initial and Handshake spaces are only noticed by time if the application space has
  one pending too (else by a probe timeout). In `pto_time_and_space` a space with only
  padded ACKs in flight clears the timer.
* **C87** durations are in whole nanoseconds; smoothing rounds down twice per sample, which
  can accumulate to 14 ns below the least sample.
* **C89** the watch for acknowledgements of a skipped number ends with the first
  acknowledgement of a larger one. A peer that first acknowledges only the latest packet and
  then everything below is never noticed, so the mitigation of optimistic ACKs is void
  against a peer that knows it. Numbers of other spaces are not refused either.
* **C90** a stateless reset closes a draining connection at once.
* **C93** `write_pkt_type` chooses an earlier packet number space as long as CRYPTO data (or,
  for Initial, an acknowledgement) waits there, but while closing neither is written and
  nothing is received. A client that calls `close(true, ..)` as soon as `is_established()`
  turns true has its Finished message waiting: it never sends CONNECTION_CLOSE, and with no
  idle timeout never ends. The same holds in 0-RTT, whose packets cannot carry the frame,
  and for reasons that do not fit a packet (they are not shortened). `close()` accepts
  error codes above 2^62-1, for which the next `send()` panics.
* **C94** `on_timeout` does not look at `closed`: a connection that ended otherwise can
  still become timed out.
* **C95** `on_timeout` calls `mark_closed` before it sets `timed_out`, so that the qlog
  never has an idle timeout; any end before the handshake is complete is logged as a
  handshake timeout.
* **C51** `decode_int` shifts with `checked_shl`, which fails only for shifts of 64 and more
  and silently drops bits for the tenth continuation byte (shift 63): integers of 2^64 and
  more may be read as small ones, e.g. 2^64 + 63 as 63, where the RFC requires an error.
* **C97** the required insert count and the base are read and thrown away: a section that
  requires entries of a dynamic table, which does not exist, is decoded. Also (not part of a
  claim): a string with invalid Huffman coding is reported as `HeaderListTooLarge`, and
  static entries with an empty value are never sent as indexed fields.
* **C98** after the integer of GOAWAY, CANCEL_PUSH and MAX_PUSH_ID the rest of the payload is
  ignored, where RFC 9114 (section 7.1) requires H3_FRAME_ERROR; payloads that end early are
  refused as `BufferTooShort`, which closes the connection with code 0x999 and not
  H3_FRAME_ERROR. Repeated settings are accepted (the last counts), which the RFC leaves to
  the receiver.
* **C99** `set_additional_settings` refuses the settings of the library but not the identifiers
  of HTTP/2 settings (0x00, 0x02-0x05), which every peer must treat as a connection error.
  Settings of 2^62 and more make `send_settings` panic. A SETTINGS frame of more than 128
  bytes cannot be sent (`with_transport` fails with `BufferTooShort`).
* **C100** the order of frames is checked only on streams opened by the peer
  (`set_frame_type` looks at `is_local`): a client takes a response that begins with DATA,
  and DATA after trailers.
* **C102** a stream that ends inside a frame is reported as Finished, where RFC 9114
  (section 7.1) requires H3_FRAME_ERROR: a body cut short looks complete.
* **C105** after a Reset event, `recv_body` on the same stream puts it on the list of
  finished streams: Finished after Reset. When the local half is finished first and the
  stream then ends inside a body, Finished is given twice.
* **C106** `recv_body` that reads only empty DATA frames returns Done without arming the event again
  and without reading on: DATA that follows is never announced. An application that
  waits for the event hangs.
* **C107** a client handles bidirectional streams opened by the server as requests, where
  RFC 9114 (section 6.1) requires H3_STREAM_CREATION_ERROR.
* **C108** the entry of a unidirectional stream of unknown type is kept for ever after the
  stream was drained.
* **C110** a client that gets GOAWAY with an identifier that is not one of a request closes with
  0x105 (H3_FRAME_UNEXPECTED), but returns `IdError`; malformed payloads close with 0x999,
  which is not registered.
* **C111** PRIORITY_UPDATE is accepted for the stream `4 * max_streams_bidi`, one beyond the
  limit (`>` in place of `>=`).

* **C113** a server can send HEADERS that are not trailers after DATA
  (`send_additional_headers` with `is_trailer_section` false looks only at whether trailers were
  sent), and DATA after these.

Remarks on the model of HTTP/3 sending: the transport's capacity of a stream is arbitrary between
calls, and a write is accepted up to it; the bytes of the control stream before GOAWAY are left
open (C99); the priorities of streams are not modelled. Observations that are part of no claim:
grease frames may be written and the headers then refused with StreamBlocked; `send_settings` and
`open_uni_stream` ignore how much was written; an empty header list is refused with InternalError
because no buffer is allocated; `send_response` on a unidirectional stream of the peer fails but
may remove the entry of the stream.

Remarks on the model of HTTP/3: the list of readable streams given to `poll` is arbitrary; the
final size of a reset stream is the number of bytes received; the transport stays alive (errors of
a closed transport are not modelled); `max_streams_bidi` is constant; the `unreachable!()` when
counting bytes of QPACK streams is a no-op; other observations that are part of no claim:
PRIORITY_UPDATE for pushes checks `id % 3`; PUSH_PROMISE passes the stream-level check; a third
HEADERS frame is refused only when processed; zero-length HEADERS at the end of a stream are
Finished via `recv_body` but an error via `poll`; `recv_body` that has read bytes and then meets
an error loses their count.
* **C117** when one of our ACK frames is acknowledged, all numbers up to its largest are removed
  from the set to acknowledge (lib.rs:3574-3583), including those of packets that arrived after the
  frame was sent. If no ACK frame was sent in between, such a packet is never acknowledged at all
  (`reordering`), although RFC 9000 13.2.1 demands that every ack-eliciting packet is acknowledged at
  least once. (RFC 9000 13.2.4 permits this removal, but assumes that ACK frames are sent in time.)
* **C117** with more than 68 ranges the range with the smallest numbers is forgotten, even if it has
  never been reported (`ranges`).
* **C119** a client does not look at the phase of packets before HANDSHAKE_DONE (lib.rs:3277). A server
  whose handshake is confirmed may update its keys at once; if it does so before HANDSHAKE_DONE arrives,
  that frame is in a packet with the new keys (or is repeated in one), and the client drops all packets
  for ever (`stuck`).
* **C120** a packet with old keys is accepted if its number is below that of the packet that started the
  update, even if another packet with a still lower number was already accepted with the new keys
  (RFC 9001 6.4 demands KEY_UPDATE_ERROR). Nor is an update refused whose packet number is below that
  of packets accepted with the old keys before.
* **C121** `update_acked` ("whether ACK frame for key-update has been sent") is set whenever a 1-RTT packet
  is built, even if there is no ACK frame in it or nothing is sent (lib.rs:4683-4685); and the timer for the
  old keys removes the mark. A peer can therefore update twice without any packet being sent in between.
* **C122** `pmtud_update_max_datagram_size` (recovery.rs:945-957) changes the size of `LegacyRecovery` only;
  the floor and the growth of the controller stay at the configured size. Conversely, if the window happens
  to equal the initial window in units of the old size, it is set again (also long after the start).
  There is no reaction to persistent congestion (RFC 9002 7.6.2) in this recovery.
* **C123** After a pause CUBIC moves `congestion_recovery_start_time` forward by the idle time
  (cubic.rs:173-195), which makes it the time of the first packet sent. Packets sent at that instant
  are "in recovery" and their losses are ignored. When the last reduction was found by the timer,
  the same holds for packets sent later.
* **C124** CUBIC undoes a reduction at the first acknowledgement after recovery if fewer than
  max(2, 20%) packets were lost (cubic.rs:238-253), even though they are lost for good.
* **C125** `cwnd_available` adds `prr.snd_cnt` to what the window leaves (recovery.rs:885-894). Each packet
  lowers both, but the last one may exceed the window by the rest of `snd_cnt`.
  With HyStart++, CUBIC treats the packets in flight at the start of congestion avoidance as if in recovery
  (`congestion_recovery_start_time` is set without a loss, cubic.rs:300-304).
* **C126** Reno adds a datagram (or a quarter) for each acknowledged packet in slow start
  (reno.rs:84-92), irrespective of its size.
* **C127** DATA_BLOCKED and STREAM_DATA_BLOCKED are not repeated when lost (lib.rs, lost frames: not handled);
  RFC 9000 13.3 asks for it, the code leaves it out on purpose. They are not part of the statement.
* **C128** RESET_STREAM with a second error code: `stream_shutdown(id, Write, 11)` followed by STOP_SENDING with
  code 22 sends RESET_STREAM with 11 and then with 22 (`SendBuf::stop` only looks at `error`, which
  `shutdown` does not set; send_buf.rs). Final sizes agree. RFC 9000 13.3: "The content of a RESET_STREAM
  frame MUST NOT change when it is sent again."
* **C129** `StreamsBlockedState` is not reset when MAX_STREAMS arrives: a STREAMS_BLOCKED for a limit that
  has been raised meanwhile is still sent, and repeated when lost.
* **C130** In `GRecovery`, a padded packet without ack-eliciting frames counts as in flight with size 0
  (lib.rs passes `size: if ack_eliciting {written} else {0}`). After an ACK of the skipped packet number
  the packets handled before the error stay in the bytes in flight; the connection is closed then.
* **C131** Lost packets are forgotten when everything sent before them is decided, at the next ACK; an ACK that
  arrives after that is not recognised as showing a spurious loss. `has_data` includes DATAGRAM frames, so
  that a probe timeout may choose a packet of which nothing can be repeated.
* **C132** Losses found by `on_path_change` are told neither to the pacer nor to the controller and are not added
  to `lost_count` (gcongestion/recovery.rs:1018-1025). Packets not in flight are told as lost and counted though
  they were never announced. `least_unacked` is computed from one space, but packet numbers in the controller
  are shared by the three spaces; the bandwidth sampler forgets everything below it (bbr2.rs:701-743,
  network_model.rs:566-574), so also open packets of other spaces. `bytes_lost` is never updated.
* **C133** As nothing acknowledged counts as packet number 0 being the largest acknowledged, packet 0 can be declared
  lost at a change of path with nothing acknowledged. The recorded time of a packet is the release time
  of the pacer (unless `time_sent_set_to_now`), which can be later than that of the packet after it; loss
  detection stops at the first packet that is not overdue.
* **C134** The comparison `new_time < time` of optional times is the same as in the other recovery, with the
  same effects (see C48, C85). After a change of path the timer is not computed again, although a loss
  time may have become pending. Discarding a packet number space does not reset the count of probe timeouts.
* **C135** `Bandwidth::from_bytes_and_time_delta` multiplies in `u64` and overflows above 2305843009 bytes (a
  panic in debug builds); durations of 2^64 ns or more are truncated.
* **C136** `Pacer::on_packet_sent` asks `is_in_recovery()` after the sender's own `on_packet_sent`, which has
  already taken `last_quiescence_start`; so `is_in_recovery()` is always true when nothing is in flight and
  burst tokens are never added again (the comment says they are on leaving quiescence). A maximum pacing rate
  of 0 means no pacing at all.
* **C137, C138** Samples whose times go back, and packet numbers that go back, panic (`example`s). In
  quiche packet numbers of a path are increasing over all spaces.
* **C139** `RecentAckPoints::update` shifts its two points with each acknowledged packet, not with each ACK;
  with `enable_overestimate_avoidance` an ACK of two packets saves a point in the middle of itself, and
  later samples are overestimated.
* **C140** `ExtraAckedEvent::round` is never set, so a new maximum of bandwidth puts all kept heights back at
  round 0, and the next one drops them once the round count is above the window.
* **C143** `Pacer::on_congestion_event` bounds the window by 1.25 times the maximum pacing rate times the
  smoothed round trip, with no minimum (`limit_cwnd`), so the window can fall below one packet.
* **C144** ProbeRTT waits for the bytes in flight to fall to half the bandwidth-delay product, but the window
  never falls below the initial window; on a path with a smaller product a busy sender stays in ProbeRTT
  (until it pauses) and bandwidth is not probed.
* **C141-C144**, as the code is: after an ACK in one packet number space `remove_obsolete_packets` drops
  outstanding packets of other spaces with smaller numbers from the sampler; the check for a standing queue in
  PROBE_UP uses the limit of Startup (0 rounds by default); the pacing rate can become 0, which means
  unpaced; a packet sent after quiescence leaves ProbeRTT but its gains stay in force until the next event; the
  branch `decrease_startup_pacing` of `update_pacing_rate` is never taken, as the gain of Startup is constant.
  Not modelled: the RTT jump detector.
* **C148** `get_or_create_recv_path_id` gives a new path the connection ID of the packet as
  `active_scid_seq`, but does not link the ID to that path if it is linked to another one. A
  RETIRE_CONNECTION_ID that arrives on the other path then leaves the number of a removed ID
  on the new path; `send_single` fails with `InvalidState`, and since a path that wants to
  send a probe is picked before the active one, every call of `send` does. A copy of one
  packet of the client, sent by an attacker from another address, is enough. Without such
  copies it still happens once a path was dropped to make room: `make_room_for_new_path`
  leaves its connection ID linked to its slot, which another path takes
  (`names_false_apart`).
* **C149** `stream_shutdown(Write)` (lib.rs:6259-6309) cuts the stream at what was sent, but
  leaves it in the queue of streams that have something to send, and `send_single` skips
  only streams stopped by the peer. So an empty STREAM frame with FIN at the place of
  the cut follows (`truncated_false`). If it arrives before RESET_STREAM, the reader
  sees a clean end of a stream that was cut short; RESET_STREAM then comes too late
  (C55 describes the receiver). And `end_hidden`: data that was read is retransmitted
  because its acknowledgement was lost; the writer has ended the stream meanwhile, so the
  retransmission carries FIN. The receiver notes the final size but drops the frame as
  old, and the application is never told, although the writer counts the stream as done.
* **C150** With a window of one byte (`initial_max_stream_data_*` of 1) no MAX_STREAM_DATA is
  ever sent, since `max_data - consumed < window / 2` compares with zero
  (flowcontrol.rs:95-99): the stream carries one byte and no more (`one_byte_stuck`).
* **C151** A token is `HMAC(ip octets ++ dcid) ++ ip octets ++ dcid` (addr_validation_token.rs:56-110):
  neither the family of the address nor its length is in it. A client with the IPv4 address a.b.c.d
  that sends an Initial packet with a 20-byte destination connection ID gets a token that is also
  valid for the IPv6 address made of a.b.c.d and the first 12 bytes of that ID
  (`C151.mixed_false`).
* **C152** The router works off its commands only every 30 datagrams (router/mod.rs:812-822). In
  between, a client that was just given a new connection ID can open a second connection with an
  Initial packet addressed to that ID; the ID then leads to the second connection, and is removed
  when that one is established, so the first loses it (`C152.stolen_false`). A batch from generic
  receive offload is routed by its first datagram only, although it may hold datagrams for several
  connections of one client socket (`C152.batch_false`). And packets with a short header are only
  recognised if connection IDs have 20 bytes, which the generator trait does not demand
  (`C152.length_false`).
* **C153** `gather_data_from_quiche_conn` (worker.rs:563-728) takes the answer `Done` for "nothing
  to send" although it offered less room than a packet needs: the first packet sets the segment
  size whatever its size (the threshold of 1000 bytes is only looked at from the second packet on),
  so after a datagram of 300 bytes one of 1100 bytes has to wait for the next event
  (`C153.small_first_false`); with gcongestion the same happens at the end of the buffer
  (`C153.tail_false`). With two paths, `has_pending_data` is that of the path asked last
  (`C153.two_paths_false`, `two_paths_reached`). The list of paths still to be asked is kept
  between gathers; a path that goes away in between gives an error, upon which the connection is
  closed (`C153.stale_false`). When a connection ends, only the first path of the list is asked for
  a last packet, which need not be the active one (`C153.close_false`).
* **C154** `Pooled::drop` counts first and checks then, so a thread that finds the shard full makes it
  look full to others until it takes its count back: a buffer may be given up although the shard is
  empty (`C154.kept_false`). Harmless, but the limit is not what a caller can count on.
* **C155** `truncate` and `advance` of `DgramBuffer` (and `truncate`/`pop_front` of `ConsumeBuffer`) add
  the count to the position before they compare. Without overflow checks a count near `usize::MAX`
  wraps: `truncate(usize::MAX)`, documented to have no effect, cuts into the headroom so that
  the next read panics (`C155.truncate_false`), and `advance` goes back (`C155.advance_false`).
  `ConsumeBuffer::expand` sets the length of the vector to the count and ignores the position
  (`C155.expand_false`); it is not called in this repository after a `pop_front`.
* **C156** A CONNECT-UDP request may carry any `u64` as `datagram-flow-id`. From 2^62 on, the
  application is told of a flow and panics the connection task when it sends on it (`put_varint`
  is `unreachable!()` there; `C156.panic_false`). Datagrams of unknown flows open flows that only a
  shutdown by the application ends (`C156.idle_false`), and the numbers chosen by clients may collide
  with those of streams (`C156.shared_false`).
* **C157** `RateSample::prior_time` is never cleared (the draft starts a new sample with every ACK), so
  an acknowledgement of only older packets adds its bytes to the last sample without extending its
  time: with a round trip of 100 ms a packet that is 7 ms late makes the reported rate rise from 24
  to 36 kB/s (`C157.backed_false`). `largest_acked` and `end_of_app_limited` are packet numbers without
  their space: after the handshake an acknowledgement of 1-RTT packet 0 ends the application-limited
  phase in which it was sent (`C157.stays_false`).
* **C159** (findings, tokio-quiche HTTP/3 driver). (1) `process_h3_fin` with a full channel makes the
  stream wait for room; if the FIN of the application is written meanwhile, `on_fin_sent` sees both
  directions done and `cleanup_stream` closes the channel, so the application reads a body that ends
  without `Body(_, true)` although the peer ended it (`C159.end_lost`; needs a response finished before
  the request body is consumed). (2) `H3Command::ShutdownStream` with `Write` alone (and every error of a
  write) removes the context of a stream whose read side is open; the next `Data` event gives
  `NonexistentStream`, which ends the connection (`C159.kills`), and trailers are taken for a new request
  (`C159.twice`).
* **C160** The allowance `left` of a packet is cut to the congestion window before the padding to the minimum
  payload is tried, so that with one to three bytes left in the window a PING or HANDSHAKE_DONE goes out in a packet
  from which the receiver cannot take the sample for header protection (`C160.tiny`). The PADDING that stands in for
  zeros after a 1-RTT packet is cut in the same way; the zeros that `send_on_path` then appends become part of the
  1-RTT packet, which the peer cannot open (`C160.zeros`). With path MTU discovery the limit of a datagram is the size
  of the next probe, and only each packet by itself is held to the MTU found so far (`C160.mtu_exceeded`); probes are
  not limited by the `max_udp_payload_size` of the peer (`C160.peer_exceeded`); and `dgram_max_writable_len` counts
  with the size of the probe, so that a DATAGRAM of that length stays at the head of the queue, and blocks it, until
  the size of the probe is changed (`C160.writable_stuck`).
* **C161** Whether a probe is due, and that one is on its way, is looked up at the active path, but the packet goes out
  on the path being sent on, and its fate is reported there. The first packet on another path (to validate it) takes the
  probe of the active path along: the active path waits for it for as long as it is active (`C161.stuck`), and the
  PATH_CHALLENGE does not fit in the packet (`C161.displaces`).
* **C162** When the window of ten rounds slides, it has the bytes of ten rounds but the time from the beginning of the
  first to that of the last, nine rounds: a steady rate is reported as ten ninths of itself (`C162.over`). While nothing
  is acknowledged no sample is taken, and the estimate does not expire (`C162.stale`).
* **C163** `put_varint_with_len` does not check that the value fits the length (`C163.oversize`); reads with a length in
  front leave the cursor after the length when they fail (`C163.moved`). Both are outside what the callers in the repository rely on.
* **C164** A task killed while it runs drops its guard after its entry was removed, and the guard then inserts a mark
  ("removed before it was added") that nothing removes (`C164.leak`). The map is static; it matters only to a process that lives on.
* **C165** `emit_dgram` is set again by every packet without DATAGRAM frames, also by those that could not carry stream data (MTU
  probes, packets on other paths, handshake packets): with one of these after each packet of datagrams, streams are never served
  (`C165.stream_starves`). A datagram of the size that `dgram_max_writable_len` allows fits only a packet without any other frame
  (`C165.dgram_starves`). If the turn is that of the streams and all in the flush queue were stopped, `send` returns `Done` although
  a datagram is waiting (`C165.idle`). With a receive queue of length zero, `push` fails with `Done`, which ends the processing of
  the packet before it is recorded (`C165.zero_queue`).
* **C166** `process_peer_transport_params` is used for remembered parameters and for those of the handshake (lib.rs:7959-8007), and
  raises the stream limits only (`update_peer_max_streams_bidi`): a server that rejects early data and allows fewer streams than
  before sees its limit exceeded (`C166.forgotten_false`). It also takes over `max_ack_delay`, `ack_delay_exponent` and
  `stateless_reset_token`, which RFC 9000, 7.4.1 forbids to remember (`C166.stored_false`). `set_session` hands the session to
  TLS before it looks at the parameters; after an error the session may be offered all the same (`C166.refused`).
* **C167** `is_stateless_reset` (lib.rs:2922-2944) compares with the token of the transport parameters only, as a TODO says. Once
  the server has gone on to another connection ID, its resets are not noticed (`C167.missed_false`), while the token of the retired
  ID still ends the connection (`C167.retired_false`). A token of the previous connection, which is public once it was used, ends
  a connection that resumes the session, before the handshake (`C167.resumed_false`).
* **C168** `Hystart::on_packet_acked` is called for each packet of an ACK frame with the same `latest_rtt` (reno.rs:94, cubic.rs:271),
  so that eight packets in one frame make the eight samples (`C168.outlier`). `congestion_event` (hystart.rs:195-199) leaves
  `css_round_count`, so that the next conservative slow start is shorter (`C168.exit_false`).
* **C169** `read_record` (reader.rs:166-169) returns `None` for an empty record, so that the loop of `next` ends although its comment
  says that all bytes are read; such a record is left when the writer fails just after the separator (`C169.empty_false`). A record
  whose line feed could not be written is read if another follows (`C169.line_false`). `start_log` that fails part-way may be called
  again and then succeeds, and the reader takes the first part for the header (`C169.header_false`).
* **C170** `can_reinit_recovery` (path.rs:530-540) asks for a time of zero to find out that nothing was sent; bytes that were in flight
  for no time, such as packets discarded at the instant they were sent, are not noticed (`C170.reinit_false`).
* **C171** no deviation. The threshold is computed in single precision (`mul_f32`), so that it is three times the least delay only up
  to rounding.
* **C172** RFC 9000, 12.2: packets of one datagram are to be processed whether or not the ones before them could be. `recv`
  (lib.rs:2862-2873) drops the rest of the datagram after a packet without a key, one that does not open, and a duplicate
  (`C172.rest_false`). The queue for 0-RTT packets is filled by packets that nobody has authenticated, and on a server that processed
  nothing yet the eleventh closes the connection (`C172.forged_false`). The key for 0-RTT packets is never dropped.
* **C173** `set_connection_to_pending` (connector.rs:131-135) sets `handshake_start_time` to the present whenever the connection waits
  again, so that the duration of the handshake is counted from its last datagram or timeout but one (`C173.start_false`). A connection
  that the peer closed is reported as timed out (connector.rs:186-193, 213-220).
* **C174** (findings, tokio-quiche HTTP/3 driver). (1) `send_request` that is blocked leaves its QUIC stream open (h3/mod.rs:1188-1208),
  which counts against the peer's limit; `wait_for_action` (client.rs:370-371) retries only as many requests as there are streams left,
  so that with the last stream the request is never tried again unless the limit is raised, and with a limit of one nothing can raise it
  (`C174.stuck_false`). (2) A later request overtakes one that waits (`C174.order_false`). (3) The first headers on a stream are taken
  for the response, so that after an interim response (1xx) the final one is dropped (`C174.final_false`). (4) A request after GOAWAY is
  an error of the connection, which ends those the peer still answers (`C174.goaway_false`). (5) Entries of `pending_requests` for
  streams that end without headers are never removed (`C174.leak_false`). (6) The limit of requests is enforced for trailers too
  (server.rs:292-300), so that the last request allowed is cut off by its own trailers (`C174.limit_false`).
* **C175** (1) `MAX_CRYPTO_STREAM_OFFSET` (lib.rs:499, 8510-8512) bounds the offset of the handshake data since the connection began,
  not the bytes waiting, so that a connection is closed with CRYPTO_BUFFER_EXCEEDED although everything has been given to TLS
  (`C175.lifetime_false`); with many session tickets this ends a healthy connection. RFC 9000 section 7.5 allows the error only when the
  data does not fit the buffer. (2) The pieces left of an overlapping frame share its allocation (range_buf.rs:54-59, 130-156): a frame of
  which one byte is new is kept whole, so that 65000 bytes waiting can keep 64 megabytes (`C175.kept_false`; the same code serves
  streams). Not modelled: a client that starts over after Retry or Version Negotiation; what TLS does with the bytes.
* **C176** (1) With early data the handshake stage ends before the handshake (connection_stage.rs:114-121): `on_conn_established`, documented
  as called after the handshake completed, is called before it, the router forgets the connection ID the client still uses for its Initial
  and 0-RTT packets (worker.rs:1124-1126), and the time for the handshake is not enforced any more (`C176.early_false`). (2) The end of the
  handshake stage is only looked for after a send; while the pacer holds packets back it is not, so a handshake that was completed in time can
  be given up with a timeout (`C176.paced_false`). (3) An error of `on_conn_established` ends the work with the result `Ok`
  (worker.rs:1093-1104), though `on_conn_close` documents `Ok` as "without any local error" (`C176.result_false`). (4) Asking for handshake
  packets while asleep (worker.rs:965-998) can note a release time without setting the timer (`C176.asleep_false`). Not modelled:
  tokio's timer granularity, a chunk size of 0 (a panic in `chunks_mut`; the system does not report it), cancellation of the task,
  connection IDs (C152) and what a batch contains (C153). One step of the model is not interrupted by time, where the code reads the clock
  more than once.
* **C177** Deviations. (1) `fin_false`: with the type of a frame and the end of the stream in one read, `try_fill_buffer` returns `fin`, the
  state buffer is full, and the parser goes on to the length without noting the end; the next `stream_recv` says `Done` (or
  `InvalidStreamState` once the stream is collected), so the caller is never told that the stream has ended. The same bytes with the end in
  a packet of its own are reported as `Interrupted(FinBit)`. `fin_partial` states when this happens: something of a frame has been read
  and no frame is complete. (2) `panic_false`: `build_h3i_frame` unwraps the result of the QPACK decoder, so that a peer that
  sends a HEADERS frame with an undecodable field section brings h3i down (three bytes); `panic_partial`: nothing else does.
  (3) `stuck`: after a frame announced with more than 2 MB, or malformed, the parser answers every later call with the same error, and the
  caller (`parse_streams`) only logs it; resets and the end of the stream are not reported any more.
  Modelled: `stream_recv` as bytes, end, whether a read has told the end, reset. Not modelled: logging, qlog, what becomes of the frames
  (`handle_response_frame`), the `PUSH_PROMISE` and other contents of `H3iFrame` beyond type and payload. `Wire` uses `IsVarint`, the
  specification of C01.
* **C178** Deviations. (1) `control_false`: `send_settings` (h3/mod.rs:2549-2552) ignores how much `stream_send` accepted, and the bytes that
  were not accepted are never sent. With an initial limit of five bytes for the stream, the peer is sent `00 04 05 06 80`; a GOAWAY accepted after
  the limit was raised is appended, and the peer reads a SETTINGS frame with a maximum field section size of 0x70100 instead of 0x8000 and no
  GOAWAY. RFC 9114, section 6.2, asks peers for a limit of at least 1024 bytes, but this is not checked. (2) `done_false`: `with_transport` is
  documented to return `InternalError` when the control stream cannot be created for lack of credit; with credit for one byte, the type is written,
  SETTINGS gives `Done`, which is returned, and the connection is closed with the code NO_ERROR.
* **C179** Deviations. (1) `early_false`: settings made in callbacks are taken over only if the TLS library returns that it needs more data
  (lib.rs:8044-8085). With 0-RTT accepted, the call in which the callbacks run returns success although the handshake is not complete, and the copy
  with the settings is thrown away; but `set_initial_max_streams_bidi_in_handshake` and `set_max_idle_timeout_in_handshake` have already given the
  parameters to the TLS library, so that the peer is told, for example, 100 streams where 10 are accepted, and is disconnected when it uses them. (2)
  `late_false`: the same when bytes are or were in flight: "calling this function any other time will have no effect" is not true of what is announced.
  (3) `short_false`: the setters change the copy before the encoding, which may fail for lack of room in 128 bytes; the value is in force but was not
  announced. (4) `panic_false`: `set_max_idle_timeout_in_handshake` (lib.rs:2702-2714) does not limit the value to the largest integer, unlike
  `set_max_idle_timeout`, and the encoder asserts; a panic within a callback of C code. (5) `size_false`: `reinit_recovery` (path.rs:541-545) starts from
  the configured size; if the peer's parameters are known already (a callback for certificates that is asked again), their `max_udp_payload_size` is
  forgotten, while `max_ack_delay` is kept.
* **C180** (`long_false`): `set_alpn` writes `proto.len() as u8`. A name of 257 bytes that is itself made of short strings is accepted, and what the client sends is a list of other names; the server then chooses one the client was not configured with.
* **C180** (`wire_false`): `set_application_protos_wire_format` reads as long as it can and ignores the rest. A list that breaks off is accepted without its last name; two bytes `05 01` give an empty list and success, after which a server refuses every handshake.
* **C180** (`refused_false`): `application_protos` is replaced before the TLS library has taken the list; if it refuses (an empty name), the call fails but a server matches against the new list while a client sends the old one.
* **C180** (`order_false`): the choice follows the client's order; RFC 7301 (3.2) recommends the server's preference.
* **C180** (`closes_false`): when the TLS library fails in `send` with an error other than SSL_ERROR_SSL, no error is recorded: `send` returns `TlsFail` and the connection stays open.
* **C181** (`close_false`): keys made by `from_secret` have sealed a dummy packet 0, so an AES-GCM context refuses packet number 0 afterwards. Packet number 0 is normally an Initial packet. A server whose application calls `close` after `recv` of the client's first packet and before `send` builds a Handshake packet with number 0 (`write_pkt_type` turns 1-RTT into Handshake): sealing fails, `send` returns `CryptoFail`, and since `draining_timer` was set before, nothing is ever sent.
* **C182** (`max_rtt_false`): `quiche_conn_path_stats` assigns every field of `quiche_path_stats` except `max_rtt`; the caller reads what was in its memory.
* **C182** (`iterator_false`): quiche.h declares `quiche_socket_addr_iter_next(.., size_t *peer_len)`; the function writes a `socklen_t` of 4 bytes. Unless the caller had cleared the variable, the length it reads is wrong, and handing it back ends the process (`address_aborts`).
* **C182** (`millis_false`, `nanos_false`): `quiche_conn_timeout_as_millis` rounds down, so that a program that waits this long calls `quiche_conn_on_timeout` too early, which does nothing, and with less than a millisecond left it is told to wait 0 ms until the timer fires. Nanoseconds wrap around at 2^64, which an idle timeout of more than 584 years can reach.
* **C182** (`header_info_false`): `quiche_header_info` returns -1, the code of DONE, when a buffer is too small, and has by then replaced the lengths of earlier buffers.
* **C182** (`h3codes_false`): there is no `QUICHE_H3_TRANSPORT_ERR_INVALID_DCID_INITIALIZATION` (-1023) in quiche.h.
* **C182** (`capacity_false`, `settings_false`): a capacity of 2^63 or more would read as an error (the library does not check); a peer whose settings have not arrived and a callback that returns -1 give the same result.
* **C182** (not modelled): `TransportParams` in ffi.rs has no `#[repr(C)]` although quiche.h declares it as a C struct, so its layout is up to the compiler; no function gives a C program the error code of a reset HTTP/3 stream.
* **C183** `recvmmsg` asks the kernel again after each full chunk of sixteen. If
  that call fails, the error is taken from the socket, and dropped since
  datagrams were received (`kept_false`). A datagram longer than its buffer is
  cut, and `MSG_TRUNC` is not looked at (`cut_false`). With an empty list of
  buffers no call is made, the return value is 0, and the code then reports
  `errno`, whatever it was; a stale `EAGAIN` clears the readiness of the socket
  although a datagram is waiting (`woken_false`). The default `poll_recv_many`
  returns an error that follows datagrams instead of their number, so that they
  are lost to the caller (`recv_many_false`); `poll_recv_datagrams` beside it
  returns the number, and drops the error (`pushed_false`).
* **C184** RFC 9218 wants parameters out of range or of unexpected type to be
  ignored. `Priority::try_from` gives urgency 7 for the first and refuses the
  whole value for the second, with the other parameter (`ignored_false`); both are
  documented. An inner list as `i` is read as false, though the documentation says
  that it is refused, as it is for `u` (`inner_false`).
* **C185** RFC 6937 sets the window to the bytes in flight plus `sndcnt`. quiche sets
  the window to the threshold and adds `snd_cnt` to what it leaves
  (recovery.rs:885-894), which allows for the gap twice (`window_false`). `snd_cnt` is
  neither used up nor cleared when recovery ends, so that `cwnd_available` goes on
  exceeding the window (`after_false`).
* **C186** When the handshake took longer than `post_accept_timeout`, `conn_established`
  fails (server.rs:287-289), but the task goes on to close with the result of the
  handshake, `Ok` (worker.rs:1093-1103): no CONNECTION_CLOSE, and the controller is not
  told (`late_false`). The timer is in the last arm of two biased `select!`s
  (worker.rs:510-526, mod.rs:1422-1427), so it waits for as long as packets are ready
  (`busy_false`).
* **C187** `is_reserved` subtracts 27 from the identifier before comparing
  (transport_params.rs:68): identifiers 17 to 26 can be unknown parameters of a peer
  (0x11 is `version_information`) and panic in builds with overflow checks
  (`reserved_false`). `push` wants strictly more room than the parameter needs
  (transport_params.rs:115, `fit_false`). `is_reserved_version` tests that no bit is set
  outside 0xfafafafa rather than that the low half bytes are 0xa (lib.rs:611-613), so
  that `Config::new(0)` succeeds (`version_false`) and a client with it sends what any
  server reads as Version Negotiation (`version_zero_false`).
* **C188** Three refuted claims. `PathStats::lost_bytes` is `bytes_lost` of the recovery, which
  starts at 0 (recovery.rs:417; gcongestion/recovery.rs:542) and is never increased, while the
  connection's `lost_bytes` grows (`path_bytes_false`). An ACK frame that acknowledges only
  packets already declared lost makes `on_ack_received` return its default outcome
  (recovery.rs:704-706) after the path counted them (692): the connection's `spurious_lost`
  misses them (`spurious_sum_false`). Probes for the path MTU are left out of the packets lost
  (recovery.rs:258-264) but not of those lost by mistake (`spurious_false`). Read but not
  modelled: with BBR, `on_path_change` (gcongestion/recovery.rs:1018-1025) reports losses to
  the connection without counting them for the path.
* **C189** Three refuted claims. `sin6_scope_id` is in the byte order of the host, but is
  passed through `u32::to_be` (router/mod.rs:568-569), as is the flow information, which the
  standard library leaves as it is: on little-endian hosts a link-local address of the server
  itself differs from what is read and overrides it (`scope_false`). The space for control
  messages (router/mod.rs:217-224) leaves out packet information, which is received too
  (584-590): on an IPv6 socket with time stamps, drop counts, marks, GRO, packet information
  and original destinations, 192 bytes are needed and 184 are there (`room_false`); the
  messages are then ignored, the size of coalesced datagrams with them (`batch_false`).
  `c - self.udp_drop_count` (521) is a panic when the system's 32-bit count wraps and overflows
  are checked (`drops_false`); it is right where they wrap (`drops_exact`). Trusted: the
  sizes and rounding of Linux on 64 bits, and that `nix` refuses truncated messages.
* **C190** `stream_finished` (lib.rs:6540-6548) answers `true` for a stream it does not know, also
  if it was never opened: data can arrive on it later (`never_opened_false`), against "there won't
  be anymore in the future". For a unidirectional stream of one's own it answers `false` until the
  stream is collected (`own_uni_false`). Finality is proved as long as the connection is not
  closed by an error: the invariant of the receiving side is not kept up beyond that.
* **C191** `send` without addresses always prefers a path that is to be probed, even if the
  server may not send it a byte. If the application of a server calls `probe_path` for a path
  it was told of, after the first challenge has used up the credit (a challenge to an
  unvalidated address is padded to all of it), nothing is ever sent by `send` although the
  active path could (`served_false`). As no challenge is in flight no timer ends this, and a
  failed validation leaves the request standing (`waits_for_ever`). Calls that name both
  addresses, as in the documented loop over `paths_iter`, are not affected
  (`listed_used`, `nothing_missed`). The congestion window of the probed path, which can
  have the same effect for a while, is not part of this model.
* **C192** An ACK the peer waits for is sent beyond the congestion window, but a PING is not,
  except for probes. So with a full window, packets that elicit nothing go on without bound,
  although 24 in a row are meant to be followed by a PING (`no_window_false`). A request by
  `send_ack_eliciting` belongs to the path active at that time; if another one becomes active,
  `send` without addresses does not act on it (`moved_false`), while `send_on_path` with both
  addresses does (`not_forgotten`). Frames are kinds and lengths here; which of them wait is
  an input.
* **C193** The bound in `grease_value` is the largest `n` for which `31 n + 33` can be encoded,
  and the bound is exclusive: the largest reserved identifier is never drawn
  (`grease_all_false`), all others are (`grease_all_partial`). That the words drawn are
  independent and uniform is left to the TLS library; `even` and `exchange` say that the
  function adds no bias to them. Where all words so far are rejected, `armed` has the value for 0;
  the code draws on.
* **C194** quiche logs data dropped on a shutdown with the final size as its offset; qlog-dancer takes
  the end of the range for the amount, so the total dropped is too large by that offset
  (`dropped_false`). `print_rx_max_data_frames` tests the MAX_STREAM_DATA frames and then unwraps the
  MAX_DATA frames; `print_tx_max_data_frames` unwraps without a test (`report_false`, exact
  conditions in `report_rx` and `report_tx`). Recipients other than the three that quiche logs end in
  `todo!()` (`foreign_false`). The initial limit of a stream is drawn as a point but not counted in
  the total (`initial_false`); for bidirectional streams that the other side started it is taken from
  the wrong transport parameter (`first_false`; right for all others, `first_partial`). An overflow is a panic here; release builds wrap.
* **C195** The server takes the destination of the first packet of a burst for all of them
  (`destination_false`), splits the buffer at the size it knows, which is that of the active path
  as of the last packets read; with discovery of the path MTU (off by default), a probe above the
  size found so far, which `send` allows as it makes it, is larger (`probe_false`); it drops the rest of a burst when the
  socket would block (`blocked_false`), and leaves the loop over the connections once one has filled its
  burst (`starved_false`; the order of the map is an input). Packets come from `Connection::send`,
  which keeps to the room it is given; that is the hypothesis `Fits` of `burst_kept`. With GSO the
  kernel is taken to split as the loop does; there it accepts all or nothing.
* **C196** Refuted: the HTTP/0.9 server looks for the trailing slash after the path was put together
  from its names, where it is gone, so that a directory has no index there (`directory_false`). A
  request with `host` and without `:authority` takes the last case of the match, which unwraps the
  authority, and panics; a request for 2^63 bytes or more panics in the allocation (`panic_false`).
  Values that are not UTF-8 and URLs that cannot be parsed are unwrapped too; `no_panic_partial`
  names all these conditions. The URL parser, the file system, the parser of numbers and the
  priority in the query are inputs. "Below the root" is about names: symbolic links are not
  modelled. Of HTTP/0.9 only the choice of the file is modelled, not the reading of the request.
  An allocation below 2^63 bytes is taken to succeed. `answer` and `rejects` list the fields in one
  order; `once`, `reads_inside`, `sends` and `no_panic_partial` are for all requests.
